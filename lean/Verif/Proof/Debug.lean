import Verif.Spec.Debug
import Verif.Proof.History
import Verif.Proof.Users
import Verif.Proof.CoreDl
/-
The functions that print compute what those without messages do, and what they print is described by the
abstract log.
-/
namespace Gotcha
open HTable
open Spec

namespace Lg

theorem bind_eq {α β : Type} (x : Lg α) (f : α → Lg β) : (x >>= f) = andThen x f := rfl

@[simp] theorem erase_pure {α : Type} (a : α) : erase (pure a : Lg α) = .ok a := rfl
@[simp] theorem erase_lift {α : Type} (x : Except Fault α) : erase (lift x) = x := by
  cases x <;> rfl
@[simp] theorem erase_say (ms : List Msg) : erase (say ms) = .ok () := rfl

@[simp] theorem erase_bind {α β : Type} (x : Lg α) (f : α → Lg β) :
    erase (x >>= f) = (erase x >>= fun a => erase (f a)) := by
  rw [bind_eq]
  unfold andThen
  cases x with
  | error e => rfl
  | ok p =>
    obtain ⟨t, a⟩ := p
    show erase (match f a with | .error e => .error e | .ok (t', b) => .ok (t ++ t', b)) =
      erase (f a)
    cases f a with
    | error e => rfl
    | ok q => rfl

@[simp] theorem erase_ite {α : Type} (c : Prop) [Decidable c] (x y : Lg α) :
    erase (if c then x else y) = if c then erase x else erase y := by split <;> rfl

theorem erase_ok {α : Type} {x : Lg α} {a : α} (h : erase x = .ok a) : ∃ t, x = .ok (t, a) := by
  cases x with
  | error e => cases h
  | ok p => obtain ⟨t, b⟩ := p; cases h; exact ⟨t, rfl⟩

theorem ok_bind {α β : Type} {x : Lg α} {f : α → Lg β} {tr b} (h : (x >>= f) = .ok (tr, b)) :
    ∃ t1 a t2, x = .ok (t1, a) ∧ f a = .ok (t2, b) ∧ tr = t1 ++ t2 := by
  rw [bind_eq] at h
  unfold andThen at h
  cases x with
  | error e => cases h
  | ok p =>
    obtain ⟨t, a⟩ := p
    dsimp only at h
    cases hf : f a with
    | error e => rw [hf] at h; cases h
    | ok q =>
      obtain ⟨t', b'⟩ := q
      rw [hf] at h
      cases h
      exact ⟨t, a, t', rfl, hf, rfl⟩

theorem ok_lift {α : Type} {x : Except Fault α} {tr a} (h : lift x = .ok (tr, a)) :
    tr = [] ∧ x = .ok a := by
  cases x with
  | error e => cases h
  | ok p => cases h; exact ⟨rfl, rfl⟩

theorem ok_pure {α : Type} {a b : α} {tr} (h : (pure a : Lg α) = .ok (tr, b)) :
    tr = [] ∧ a = b := by cases h; exact ⟨rfl, rfl⟩

theorem ok_say {ms : List Msg} {tr b} (h : say ms = .ok (tr, b)) : tr = ms := by cases h; rfl

theorem erase_getOrCreate (ts : Tools) (name : Name) :
    erase (getOrCreate ts name) = ts.getOrCreate name := by
  unfold getOrCreate Tools.getOrCreate
  simp only [erase_bind, erase_lift]
  cases ts.getTool name with
  | error e => rfl
  | ok r =>
    cases r with
    | some i => rfl
    | none =>
      show erase (_ >>= _) = _
      simp only [erase_bind, erase_say, erase_lift, erase_pure, bind, Except.bind]
      cases ts.create name <;> rfl

theorem erase_prepareSymbol (env : Env) (s : State) (b : BId) :
    erase (prepareSymbol env s b) = s.prepareSymbol env b := by
  unfold prepareSymbol State.prepareSymbol
  simp only [erase_bind, erase_lift]
  cases s.bind b with
  | error e => rfl
  | ok x =>
    simp only [bind, Except.bind]
    cases prepareLoop env x.user.name x.user.handle s.linkMap s with
    | error e => rfl
    | ok y =>
      obtain ⟨s1, ok⟩ := y
      cases ok <;> rfl

theorem erase_rewriteOrders {om : State → Except Fault State} {omL : State → Lg State}
    (hom : ∀ s, erase (omL s) = om s) (s : State) (b : BId) :
    erase (rewriteOrders omL s b) = Gotcha.rewriteOrders om s b := by
  unfold rewriteOrders Gotcha.rewriteOrders
  simp only [erase_bind, erase_lift, erase_ite, hom, erase_pure]
  rfl

theorem erase_processOne {env : Env} {om : State → Except Fault State} {omL : State → Lg State}
    (hom : ∀ s, erase (omL s) = om s) (n b s nb nf) :
    erase (processOne env omL n b s nb nf) = Gotcha.processOne env om n b s nb nf := by
  unfold processOne Gotcha.processOne
  simp only [erase_bind, erase_lift, erase_rewriteOrders hom]
  congr 1; funext xb
  congr 1; funext ⟨s1, r⟩
  obtain ⟨lk, bd⟩ := r
  dsimp only
  cases lk with
  | false =>
    cases bd with
    | false => rfl
    | true =>
      simp only [if_true, Bool.false_eq_true, if_false, erase_bind, erase_lift, erase_pure]
  | true =>
    simp only [if_true, erase_bind, erase_prepareSymbol]
    congr 1; funext ⟨s2, ok⟩
    cases ok <;> cases bd <;>
      simp only [if_true, Bool.false_eq_true, if_false, erase_bind, erase_lift, erase_pure] <;> rfl

theorem erase_processBindings {env : Env} {om : State → Except Fault State} {omL : State → Lg State}
    (hom : ∀ s, erase (omL s) = om s) (n : Nat) (bs : List BId) : ∀ s nb nf,
    erase (processBindings env omL n bs s nb nf) = Gotcha.processBindings env om n bs s nb nf := by
  induction bs with
  | nil => intro s nb nf; rfl
  | cons b bs ih =>
    intro s nb nf
    rw [processBindings_cons, processBindings]
    simp only [erase_bind, erase_processOne hom]
    congr 1; funext ⟨s1, nb1, nf1⟩
    exact ih _ _ _

theorem erase_wrapCore {env : Env} {om : State → Except Fault State} {omL : State → Lg State}
    (hom : ∀ s, erase (omL s) = om s) (tbl tool s) :
    erase (wrapCore env omL tbl tool s) = Gotcha.wrapCore env om tbl tool s := by
  unfold wrapCore Gotcha.wrapCore
  simp only [erase_bind, erase_say, erase_lift, erase_getOrCreate, erase_processBindings hom]
  show (Tools.getOrCreate _ _ >>= _) = _
  congr 1; funext ⟨ts, tid⟩
  congr 1; funext ⟨s1, nb, nf⟩
  have hfin : ∀ s2 : State, erase (if nf > 0 then
        (say [.couldNot nf tbl.length] >>= fun _ => pure (s2, .functionNotFound) : Lg (State × RetCode))
      else (say [.wrapDone] >>= fun _ => pure (s2, .success))) =
      .ok (s2, if nf > 0 then RetCode.functionNotFound else .success) := by
    intro s2; split <;> rfl
  cases nb with
  | none => exact hfin s1
  | some t =>
    show (_ >>= _) = (_ >>= _)
    congr 1
    exact funext hfin

theorem erase_onMainReal (env : Env) (s : State) :
    erase (onMainReal env s) = Gotcha.onMainReal env s := by
  unfold onMainReal Gotcha.onMainReal wrapInner
  have h : ∀ s : State, erase ((fun s => pure s : State → Lg State) s) =
      (fun s => .ok s : State → Except Fault State) s := fun s => rfl
  simp only [erase_ite, erase_pure, erase_bind, erase_wrapCore h]

theorem erase_gotchaInit (env : Env) (s : State) :
    erase (gotchaInit env s) = Gotcha.gotchaInit env s := by
  unfold gotchaInit Gotcha.gotchaInit wrapBody
  simp only [erase_ite, erase_pure, erase_bind, erase_lift, erase_wrapCore (erase_onMainReal env)]

/-- Printing does not change what gotcha_wrap does. -/
theorem erase_gotchaWrap (env : Env) (tbl tool s) :
    erase (gotchaWrap env tbl tool s) = Gotcha.gotchaWrap env tbl tool s := by
  unfold gotchaWrap Gotcha.gotchaWrap wrapBody
  simp only [erase_bind, erase_gotchaInit, erase_wrapCore (erase_onMainReal env)]

theorem erase_setPriority (ts : Tools) (name : Name) (v : Int) :
    erase (setPriority ts name v) = ts.setPriority name v := by
  unfold setPriority Tools.setPriority
  simp only [erase_bind, erase_lift, erase_getOrCreate]
  cases ts.getOrCreate name with
  | error f => rfl
  | ok x =>
    obtain ⟨ts1, i⟩ := x
    simp only [bind, Except.bind]
    cases Tools.getOrCreate _ name with
    | error f => rfl
    | ok y =>
      obtain ⟨ts3, j⟩ := y
      dsimp only
      cases ts3.remove j <;> rfl

theorem erase_gotchaSetPriority (env : Env) (tool v s) :
    erase (gotchaSetPriority env tool v s) = Gotcha.gotchaSetPriority env tool v s := by
  unfold gotchaSetPriority Gotcha.gotchaSetPriority
  simp only [erase_bind, erase_gotchaInit, erase_say, erase_setPriority, erase_pure]
  rfl

theorem erase_perBinding (env : Env) (key data) (s : State) :
    erase (perBinding env key data s) = Gotcha.perBinding env key data s := by
  unfold perBinding Gotcha.perBinding
  cases key with
  | none => rfl
  | some k =>
    cases data with
    | none => rfl
    | some b =>
      simp only [erase_bind, erase_lift, erase_prepareSymbol]
      congr 1; funext c
      congr 1; funext ⟨s1, ok⟩
      dsimp only
      cases ok with
      | false => rfl
      | true => simp only [if_true, erase_bind, erase_lift, erase_pure]

theorem perBindingLog_fst (env : Env) (key data) (x : State × List Msg) :
    (perBindingLog env key data x).map (fun y => (y.1.1, y.2)) =
      Gotcha.perBinding env key data x.1 := by
  rw [← erase_perBinding]
  unfold perBindingLog
  cases h : perBinding env key data x.1 with
  | error f => rfl
  | ok z => obtain ⟨tr, s, st⟩ := z; rfl

theorem foreach_fst (env : Env) : ∀ (n : Nat) (i : Option Nat) (x : State × List Msg),
    (foreachEntry (fun x : State × List Msg => x.1.notFound) (perBindingLog env) n i x).map
      (·.1) = foreachEntry State.notFound (Gotcha.perBinding env) n i x.1
  | 0, none, x => rfl
  | n + 1, none, x => rfl
  | 0, some i, x => rfl
  | n + 1, some i, x => by
    unfold foreachEntry
    cases hs : x.1.notFound.slots[i]? with
    | none => rfl
    | some e =>
      dsimp only
      have := perBindingLog_fst env e.key e.data x
      cases hl : perBindingLog env e.key e.data x with
      | error f => rw [hl] at this; rw [← this]; rfl
      | ok y =>
        obtain ⟨x', st⟩ := y
        rw [hl] at this
        rw [← this]
        cases st with
        | true => rfl
        | false =>
          simp only [Except.map]
          cases hs' : x'.1.notFound.slots[i]? with
          | none => rfl
          | some e' => exact foreach_fst env n e'.next x'

/-- Printing does not change what the intercepted dlopen does. -/
theorem erase_dlopenWrapper (env : Env) (file flags) (ld : Load) (s : State) :
    erase (dlopenWrapper env file flags ld s) = Gotcha.dlopenWrapper env ld s := by
  unfold dlopenWrapper Gotcha.dlopenWrapper State.afterDlopen
  simp only [erase_bind, erase_lift, erase_say]
  congr 1; funext a
  have := foreach_fst env (s.load ld).notFound.slots.length (s.load ld).notFound.head (s.load ld, [])
  show (foreachEntry _ _ _ _ _ >>= _) = _
  rw [← this]
  cases foreachEntry (fun x : State × List Msg => x.1.notFound) (perBindingLog env)
      (s.load ld).notFound.slots.length (s.load ld).notFound.head (s.load ld, []) with
  | error f => rfl
  | ok x => obtain ⟨s1, lg⟩ := x; simp [bind, Except.bind, Except.map]

end Lg

/-! ### what is printed -/

theorem rewriteRest_users {s s' : State} {b xb p r} (he : Lg.rewriteRest s b xb p = .ok (s', r)) :
    users s' = users s := by
  unfold Lg.rewriteRest at he
  obtain ⟨o, h1, he⟩ := ebind he
  cases o with
  | none =>
    obtain ⟨t, h2, he⟩ := ebind he
    cases he; rfl
  | some head =>
    obtain ⟨hp, h2, he⟩ := ebind he
    by_cases hlt : hp < p
    · rw [if_pos hlt] at he
      obtain ⟨s2, h3, he⟩ := ebind he
      cases he
      exact insertAtHead_users h3
    · rw [if_neg hlt] at he
      obtain ⟨o, h3, he⟩ := ebind he
      cases o with
      | none => cases he; rfl
      | some pos =>
        obtain ⟨s2, h4, he⟩ := ebind he
        cases he
        exact insertAfter_users h4

theorem users_bind {s : State} {b x} (h : s.bind b = .ok x) : (users s)[b]? = some x.user := by
  unfold State.bind at h
  unfold users
  rw [List.getElem?_map]
  cases hx : s.binds[b]? with
  | none => rw [hx] at h; cases h
  | some y => rw [hx] at h; cases h; rfl

theorem users_btu {s : State} {b t u} (h : btu s.binds b = some (t, u)) :
    (users s)[b]? = some u := by
  obtain ⟨x, hx, -, rfl⟩ := btu_get h
  simp [users, hx]

theorem processOne_log {env : Env} {omL : State → Lg State} {n b s nb nf lg s' nb' nf' u}
    (h : Lg.processOne env omL n b s nb nf = .ok (lg, (s', nb', nf')))
    (hb : (users s)[b]? = some u)
    (hom : ∀ lm s1, omL s = .ok (lm, s1) → (users s1)[b]? = some u) :
    ∃ lm s1, (if u.name = nm "main" then omL s else pure s) = .ok (lm, s1) ∧
      lg = lm ++ if nf' = nf then [] else [.symbol u.name] := by
  unfold Lg.processOne at h
  obtain ⟨t1, xb, t2, e1, e2, rfl⟩ := Lg.ok_bind h
  replace e1 := Lg.ok_lift e1
  obtain ⟨rfl, e1⟩ := e1
  have hu : xb.user = u := by
    have := users_bind e1
    rw [hb] at this; exact (Option.some.inj this).symm
  obtain ⟨t3, ⟨s2, r⟩, t4, e3, e4, rfl⟩ := Lg.ok_bind e2
  unfold Lg.rewriteOrders at e3
  obtain ⟨t5, xb', t6, e5, e6, rfl⟩ := Lg.ok_bind e3
  replace e5 := Lg.ok_lift e5
  obtain ⟨rfl, e5⟩ := e5
  rw [e1] at e5
  cases e5
  obtain ⟨t7, p, t8, e7, e8, rfl⟩ := Lg.ok_bind e6
  replace e7 := Lg.ok_lift e7
  obtain ⟨rfl, e7⟩ := e7
  have e8' : ((if xb.user.name = nm "main" then omL s else pure s) >>= fun s =>
      Lg.lift (Lg.rewriteRest s b xb p)) = .ok (t8, (s2, r)) := by
    by_cases hm : xb.user.name = nm "main"
    · rw [if_pos hm] at e8 ⊢; exact e8
    · rw [if_neg hm] at e8 ⊢; exact e8
  obtain ⟨lm, s1, t9, e9, e10, rfl⟩ := Lg.ok_bind e8'
  replace e10 := Lg.ok_lift e10
  obtain ⟨rfl, e10⟩ := e10
  rw [hu] at e9
  refine ⟨lm, s1, e9, ?_⟩
  have hu1 : (users s1)[b]? = some u := by
    by_cases hm : u.name = nm "main"
    · rw [if_pos hm] at e9; exact hom _ _ e9
    · rw [if_neg hm] at e9
      obtain ⟨-, rfl⟩ := Lg.ok_pure e9
      exact hb
  have hu2 : (users s2)[b]? = some u := by rw [rewriteRest_users e10]; exact hu1
  simp only [List.nil_append, List.append_nil]
  congr 1
  have hlast : ∀ {z : State × Nat} {t10} {nb0 : Option (HTable Name BId)},
      ((pure z : Lg (State × Nat)) >>= fun x =>
        Lg.lift (if r.binding = true then addNew env n nb0 xb.user.name b else .ok nb0) >>=
        fun nb => (pure (x.1, nb, x.2) : Lg _)) = .ok (t10, (s', nb', nf')) →
      t10 = [] ∧ z.2 = nf' := by
    intro z t10 nb0 hh
    obtain ⟨q0, z', q0', g0, hh, rfl⟩ := Lg.ok_bind hh
    obtain ⟨rfl, rfl⟩ := Lg.ok_pure g0
    obtain ⟨q1, y, q2, g1, g2, rfl⟩ := Lg.ok_bind hh
    obtain ⟨rfl, -⟩ := Lg.ok_lift g1
    obtain ⟨rfl, g2⟩ := Lg.ok_pure g2
    cases g2
    exact ⟨rfl, rfl⟩
  dsimp only at e4
  by_cases hlk : r.lookup = true
  · rw [if_pos hlk] at e4
    obtain ⟨q1, ⟨s3, ok⟩, q2, g1, g2, rfl⟩ := Lg.ok_bind e4
    unfold Lg.prepareSymbol at g1
    obtain ⟨q3, xb2, q4, g3, g4, rfl⟩ := Lg.ok_bind g1
    replace g3 := Lg.ok_lift g3
    obtain ⟨rfl, g3⟩ := g3
    have hu3 : xb2.user = u := by
      have := users_bind g3
      rw [hu2] at this; exact (Option.some.inj this).symm
    obtain ⟨q5, ⟨s4, ok'⟩, q6, g5, g6, rfl⟩ := Lg.ok_bind g4
    replace g5 := Lg.ok_lift g5
    obtain ⟨rfl, g5⟩ := g5
    dsimp only at g6
    cases ok' with
    | true =>
      rw [if_pos rfl] at g6
      obtain ⟨rfl, g6⟩ := Lg.ok_pure g6
      cases g6
      dsimp only at g2
      rw [if_pos rfl] at g2
      obtain ⟨rfl, rfl⟩ := hlast g2
      simp
    | false =>
      rw [if_neg (by simp)] at g6
      obtain ⟨q7, _, q8, g7, g8, rfl⟩ := Lg.ok_bind g6
      rw [Lg.ok_say g7]
      obtain ⟨rfl, g8⟩ := Lg.ok_pure g8
      cases g8
      dsimp only at g2
      rw [if_neg (by simp)] at g2
      obtain ⟨q9, t, q10, g9, g10, rfl⟩ := Lg.ok_bind g2
      replace g9 := Lg.ok_lift g9
      obtain ⟨rfl, g9⟩ := g9
      obtain ⟨rfl, rfl⟩ := hlast g10
      simp [hu3]
  · rw [if_neg hlk] at e4
    obtain ⟨rfl, rfl⟩ := hlast e4
    simp

/-- What the block for "main" prints. -/
structure OnMainL (C : Ctx) (om : State → Except Fault State) (omL : State → Lg State)
    (oml : Abs → List Msg) : Prop where
  erase : ∀ s, (omL s).erase = om s
  log : ∀ {s G A lm s1}, Inv C s G A → omL s = .ok (lm, s1) → lm = oml A

theorem processBindings_log {C : Ctx} (w : World C.env C.U) (hh : C.hon) (hsl : ¬ C.sl)
    {om oa quiet Q omL oml} (hom : OnMain C om oa quiet Q) (hoL : OnMainL C om omL oml)
    {n : Nat} (hn : 0 < n) {t tool p} {D : Name → Prop} (us : List UBinding) :
    ∀ {s : State} {G : Gh} {A : Abs} {bs : List BId} {nb m} {nf : Nat} {lg r}, Inv C s G A → bs.Nodup →
      bs.map (btu s.binds) = us.map (fun u => some (t, u)) → (∀ b ∈ bs, G.pend b) →
      (Tools.np s.tools.store)[t]? = some (tool, p) → NbOk nb m → NbEnt s G p m →
      (G.dirty = fun f => D f ∨ (m f).isSome = true) →
      Lg.processBindings C.env omL n bs s nb nf = .ok (lg, r) →
      lg = pushAllLog oml oa tool us A := by
  induction us with
  | nil =>
    intro s G A bs nb m nf lg r h hnd hbs hpend hpp hnb hent hD hl
    have : bs = [] := by simpa using hbs
    subst this
    exact (Lg.ok_pure hl).1
  | cons u us ih =>
    intro s G A bs nb m nf lg r h hnd hbs hpend hpp hnb hent hD hl
    cases bs with
    | nil => simp at hbs
    | cons b bs =>
    simp only [List.map_cons, List.cons.injEq] at hbs
    rw [List.nodup_cons] at hnd
    obtain ⟨s1, G1, nb1, m1, nf1, e1, e2, e3, e4, e5, e6, e7, -, e9, -⟩ :=
      processOne_spec w hom hn (nf := nf) h (hpend b (by simp)) hbs.1 hpp hnb hent hD
        (fun hc => absurd hc hsl)
    have hpp1 : (Tools.np s1.tools.store)[t]? = some (tool, p) := by
      obtain ⟨z, hz⟩ := e3.np
      rw [← hz, List.getElem?_append_left (List.getElem?_eq_some_iff.1 hpp).1, hpp]
    have hbs1 : bs.map (btu s1.binds) = us.map (fun u => some (t, u)) := by
      rw [← hbs.2]
      refine List.map_congr_left ?_
      intro c hc
      have hcl := h.bind.pendb (hpend c (List.mem_cons_of_mem _ hc))
      obtain ⟨t', u', hcu⟩ := btu_of_lt hcl
      rw [hcu, e3.tu hcu]
    have hpend1 : ∀ c ∈ bs, G1.pend c := by
      intro c hc
      rw [e4]
      exact ⟨hpend c (List.mem_cons_of_mem _ hc), fun e => hnd.1 (by rw [← e]; exact hc)⟩
    obtain ⟨l1, ⟨s1', nb1', nf1'⟩, l2, g1, g2, rfl⟩ := Lg.ok_bind hl
    have herase := Lg.erase_processOne (env := C.env) hoL.erase n b s nb nf
    rw [g1, e1] at herase
    cases herase
    have hrest := ih e2 hnd.2 hbs1 hpend1 hpp1 e5 e6 e7 g2
    have hpr : A.prioOf tool = p := prioOf_eq h hpp
    obtain ⟨lm, s0, g3, rfl⟩ := processOne_log g1 (users_btu hbs.1) (by
      intro lm s0 hs0
      obtain ⟨s0', G0, k1, -, k3, -⟩ := hom.step h (fun hc => absurd hc hsl)
      have he := hoL.erase s
      rw [hs0, k1] at he
      cases he
      exact users_btu (k3.tu hbs.1))
    have hlm : lm = if u.name = nm "main" then oml A else [] := by
      by_cases hm : u.name = nm "main"
      · rw [if_pos hm] at g3 ⊢
        exact hoL.log h g3
      · rw [if_neg hm] at g3 ⊢
        exact (Lg.ok_pure g3).1
    rw [pushAllLog, hpr, hrest, hlm, List.append_assoc]
    congr 2
    have := e9 hh
    by_cases hp : ((if u.name = nm "main" then oa A else A).push tool p u).2 = true
    · rw [if_pos hp] at this ⊢
      rw [if_neg (by omega)]
    · rw [if_neg hp] at this ⊢
      rw [if_pos (by omega)]

/-! ### whole calls -/

theorem getOrCreate_log {C : Ctx} {s G A} (h : Inv C s G A) {t : Name} {lg r}
    (hl : Lg.getOrCreate s.tools t = .ok (lg, r)) : lg = toolLog A t := by
  obtain ⟨L, hok⟩ := h.tools
  unfold Lg.getOrCreate at hl
  obtain ⟨t1, o, t2, e1, e2, rfl⟩ := Lg.ok_bind hl
  replace e1 := Lg.ok_lift e1
  obtain ⟨rfl, e1⟩ := e1
  rcases Tools.getTool_spec hok t with ⟨i, x, g1, g2, g3⟩ | ⟨g1, g2⟩
  · rw [g1] at e1
    cases e1
    obtain ⟨rfl, -⟩ := Lg.ok_pure e2
    have : (t, x.priority) ∈ Tools.np s.tools.store := by
      rw [← g3]
      exact List.mem_map.2 ⟨x, List.mem_of_getElem? g2, rfl⟩
    simp [toolLog, (h.prio t x.priority).2 this]
  · rw [g1] at e1
    cases e1
    obtain ⟨q1, _, q2, e3, e4, rfl⟩ := Lg.ok_bind e2
    rw [Lg.ok_say e3]
    obtain ⟨q3, y, q4, e5, e6, rfl⟩ := Lg.ok_bind e4
    replace e5 := Lg.ok_lift e5
    obtain ⟨rfl, -⟩ := e5
    obtain ⟨q5, _, q6, e7, e8, rfl⟩ := Lg.ok_bind e6
    rw [Lg.ok_say e7]
    obtain ⟨rfl, -⟩ := Lg.ok_pure e8
    have hnone : A.prio t = none := by
      cases hx : A.prio t with
      | none => rfl
      | some v =>
        have := (h.prio t v).1 hx
        apply absurd _ g2
        simp only [Tools.np, List.mem_map] at this ⊢
        obtain ⟨x, hx1, hx2⟩ := this
        exact ⟨x, hx1, by simpa using congrArg Prod.fst hx2⟩
    simp [toolLog, hnone]

theorem wrapCore_log {C : Ctx} (w : World C.env C.U) (hh : C.hon) (hsl : ¬ C.sl)
    {om oa quiet Q omL oml} (hom : OnMain C om oa quiet Q) (hoL : OnMainL C om omL oml)
    {s : State} {G : Gh} {A : Abs} (h : Inv C s G A) {tbl : List UBinding} {tool : Option Name}
    (hT : HonT C s tbl) {lg r} (hl : Lg.wrapCore C.env omL tbl tool s = .ok (lg, r)) :
    lg = wrapLog oml oa tbl tool A := by
  unfold Lg.wrapCore at hl
  obtain ⟨t1, _, t2, e1, e2, rfl⟩ := Lg.ok_bind hl
  rw [Lg.ok_say e1]
  obtain ⟨H0, hf, -⟩ := fold_handles tbl s
  generalize htn : tool.getD (nm "[UNSPECIFIED]") = tn at *
  obtain ⟨ts, tid, p, H, hgc, hnp, hadd, hI, hK⟩ := setup_inv h tn tbl (fun _ => hT)
    (fun hc => absurd hc hsl)
  rw [hf] at e2 hadd
  obtain ⟨t3, ⟨ts', tid'⟩, t4, e3, e4, rfl⟩ := Lg.ok_bind e2
  have herase := Lg.erase_getOrCreate s.tools tn
  rw [show Lg.getOrCreate s.tools tn = _ from e3, hgc] at herase
  cases herase
  rw [getOrCreate_log h e3]
  dsimp only at e4
  rw [hadd] at e4
  obtain ⟨t5, ⟨s2, nb, nf⟩, t6, e5, e6, rfl⟩ := Lg.ok_bind e4
  set s1 : State := { s with
          tools := ts
          gen := s.gen + 1
          binds := s.binds ++ tbl.map (mkB tid)
          handles := H } with hs1
  set G1 : Gh := { G with
    pend := fun c => G.pend c ∨ c ∈ List.range' s.binds.length tbl.length } with hG1
  have hbs : (List.range' s.binds.length tbl.length).map (btu s1.binds) =
      tbl.map (fun u => some (tid, u)) := by
    apply List.ext_getElem?
    intro i
    simp only [List.getElem?_map]
    by_cases hi : i < tbl.length
    · rw [List.getElem?_range' (by simpa using hi), List.getElem?_eq_getElem hi]
      simp only [Option.map_some, Nat.one_mul]
      congr 1
      show btu (s.binds ++ tbl.map (mkB tid)) _ = _
      simp [btu, List.getElem?_append_right, List.getElem?_eq_getElem hi, mkB]
    · rw [List.getElem?_eq_none (by simp; omega), List.getElem?_eq_none (by omega)]
      rfl
  have hnd : (List.range' s.binds.length tbl.length).Nodup := List.nodup_range'
  have hnb0 : NbOk none (fun _ => none) := Or.inl ⟨rfl, fun _ => rfl⟩
  have hent0 : NbEnt s1 G1 p (fun _ => none) := by intro f b e; cases e
  have herase := Lg.erase_processBindings (env := C.env) hoL.erase tbl.length
    (List.range' s.binds.length tbl.length) s1 none 0
  have key : ∀ n, 0 < n → _ := fun n hn => processBindings_spec w hom (n := n) hn (t := tid)
    (tool := tn) (p := p) (D := G.dirty) (nb := none) (nf := 0) (m := fun _ => none) tbl hI hnd hbs
    (fun b hb => Or.inr hb) hnp hnb0 hent0 (by funext f; simp [hG1]) (fun hc => absurd hc hsl)
  have keyL : ∀ n, 0 < n → Lg.processBindings C.env omL n
      (List.range' s.binds.length tbl.length) s1 none 0 = .ok (t5, (s2, nb, nf)) →
      t5 = pushAllLog oml oa tn tbl (A.touch tn) := fun n hn hx =>
    processBindings_log w hh hsl hom hoL (n := n) hn (t := tid)
    (tool := tn) (p := p) (D := G.dirty) (nb := none) (nf := 0) (m := fun _ => none) tbl hI hnd hbs
    (fun b hb => Or.inr hb) hnp hnb0 hent0 (by funext f; simp [hG1]) hx
  have hnf : nf = (Abs.pushAll oa tn tbl (A.touch tn)).2 ∧
      t5 = pushAllLog oml oa tn tbl (A.touch tn) := by
    rw [show Lg.processBindings C.env omL tbl.length
      (List.range' s.binds.length tbl.length) s1 none 0 = _ from e5] at herase
    cases tbl with
    | nil =>
      obtain ⟨s', G', nb', m', nf', k1, -, -, -, -, -, -, -, k9, -⟩ := key 1 (by omega)
      refine ⟨?_, keyL 1 (by omega) e5⟩
      have k2 : Except.ok (s2, nb, nf) = Except.ok (s', nb', nf') := herase.trans k1
      cases k2
      simpa using k9 hh
    | cons u us =>
      obtain ⟨s', G', nb', m', nf', k1, -, -, -, -, -, -, -, k9, -⟩ := key (u :: us).length (by simp)
      refine ⟨?_, keyL (u :: us).length (by simp) e5⟩
      have k2 : Except.ok (s2, nb, nf) = Except.ok (s', nb', nf') := herase.trans k1
      cases k2
      simpa using k9 hh
  obtain ⟨t7, s3, t8, e7, e8, rfl⟩ := Lg.ok_bind e6
  obtain ⟨rfl, -⟩ := Lg.ok_lift e7
  have ht8 : t8 = [doneMsg nf tbl.length] := by
    dsimp only at e8
    unfold doneMsg
    by_cases hz : nf > 0
    · rw [if_pos hz] at e8 ⊢
      obtain ⟨q1, _, q2, g1, g2, rfl⟩ := Lg.ok_bind e8
      rw [Lg.ok_say g1, (Lg.ok_pure g2).1]; rfl
    · rw [if_neg hz] at e8 ⊢
      obtain ⟨q1, _, q2, g1, g2, rfl⟩ := Lg.ok_bind e8
      rw [Lg.ok_say g1, (Lg.ok_pure g2).1]; rfl
  rw [ht8, hnf.2, hnf.1]
  unfold wrapLog
  rw [htn]
  rfl

theorem onMainL_id (C : Ctx) :
    OnMainL C (fun s => .ok s) (fun s => pure s) (fun _ => []) where
  erase := fun _ => rfl
  log := fun _ hl => (Lg.ok_pure hl).1

theorem onMainL_real {C : Ctx} (w : World C.env C.U) (hh : C.hon) (hsl : ¬ C.sl)
    (henv : EnvOk C.env C.P) :
    OnMainL C (onMainReal C.env) (Lg.onMainReal C.env) (onMainLog C.env) where
  erase := Lg.erase_onMainReal C.env
  log := by
    intro s G A lm s1 h hl
    unfold Lg.onMainReal at hl
    unfold onMainLog
    rw [h.mainW]
    cases hm : s.mainWrapped with
    | true =>
      rw [if_pos hm] at hl
      rw [if_pos rfl]
      exact (Lg.ok_pure hl).1
    | false =>
      rw [if_neg (by rw [hm]; simp)] at hl
      rw [if_neg (by simp)]
      have h0 : Inv C { s with mainWrapped := true } G { A with mainWrapped := true } :=
        { tools := h.tools
          bind := h.bind
          fn := h.fn
          nf := h.nf
          nfm := h.nfm
          lib := h.lib
          wr := h.wr
          objs := h.objs
          nd := h.nd
          placed := h.placed
          vd := h.vd
          hon := h.hon
          nfr := h.nfr
          fresh := fun _ e => by cases e
          onch := h.onch
          slots := h.slots
          prio := h.prio
          stack := h.stack
          real := h.real
          libs := h.libs
          vdso := h.vdso
          mainW := rfl
          init := h.init
          init' := h.init' }
      have hT1 : HonT C { s with mainWrapped := true } (libcMainTable C.env) :=
        { nodup := by simp [libcMainTable]
          prog := by
            intro u hu
            simp only [libcMainTable, List.mem_singleton] at hu
            subst hu; exact henv.libcMain
          unused := by
            intro b t u hb
            simp only [libcMainTable, List.map_cons, List.map_nil, List.mem_singleton]
            exact (h.fresh hh hm hb).1
          fresh := fun e => by cases e }
      obtain ⟨l1, ⟨s2, c⟩, l2, e1, e2, rfl⟩ := Lg.ok_bind hl
      rw [wrapCore_log w hh hsl (onMain_id C) (onMainL_id C) h0 hT1 e1]
      obtain ⟨l3, ⟨s3, c'⟩, l4, e3, e4, rfl⟩ := Lg.ok_bind e2
      rw [(Lg.ok_pure e4).1]
      obtain ⟨s2', G2, c2, f1, f2, -, f4, f5, f6, f7, -, f9, -, -⟩ := wrapCore_spec w (onMain_id C) h0
        (libcMainTable C.env) (some (nm "gotcha")) (fun _ => hT1) (fun hc => absurd hc hsl)
        (fun _ => Or.inr (Or.inl trivial))
      have herase := Lg.erase_wrapCore (env := C.env) (onMainL_id C).erase (libcMainTable C.env)
        (some (nm "gotcha")) { s with mainWrapped := true }
      rw [e1, f1] at herase
      cases herase
      have hT2 : HonT C s2 (mainTable C.env) :=
        { nodup := by simp [mainTable]
          prog := by
            intro u hu
            simp only [mainTable, List.mem_singleton] at hu
            subst hu; exact henv.main
          unused := by
            intro b t u hb
            simp only [mainTable, List.map_cons, List.map_nil, List.mem_singleton]
            rcases f9 b t u hb with hb | hb | ⟨hb, -⟩
            · exact (h.fresh hh hm hb).2
            · simp only [libcMainTable, List.mem_singleton] at hb
              subst hb
              have := henv.distinct
              simp at this
              tauto
            · exact absurd hb id
          fresh := fun e => by rw [f4.mainW rfl] at e; cases e }
      rw [wrapCore_log w hh hsl (onMain_id C) (onMainL_id C) f2 hT2 e3, List.append_nil]

theorem gotchaInit_log {C : Ctx} (w : World C.env C.U) (hh : C.hon) (hsl : ¬ C.sl)
    (henv : EnvOk C.env C.P) {seen n s A} (h : Top C seen n s A) {lg s'}
    (hl : Lg.gotchaInit C.env s = .ok (lg, s')) : lg = initLog C.env A := by
  unfold Lg.gotchaInit at hl
  unfold initLog
  rw [top_inited h]
  rcases h with h | ⟨v, G, h⟩
  · have hin : s.inited = false := by rw [h.st]; rfl
    have hbinds : s.binds = [] := by rw [h.st]; rfl
    rw [if_neg (by rw [hin]; simp)] at hl
    rw [if_neg (by rw [hin]; simp)]
    have h' : Pre (C.at (C.env.vdsoOf s.linkMap)) seen s A :=
      ⟨h.st, h.abs, h.objs, h.nd, h.placed, h.cover, h.ne, h.slots⟩
    obtain ⟨lt, ft, nt, hlt, hft, hnt, h0⟩ := pre_inv (C := C.at (C.env.vdsoOf s.linkMap)) w h' rfl
    replace hlt : HTable.create C.env.page 128 = .ok lt := hlt
    replace hft : HTable.create C.env.page 4096 = .ok ft := hft
    replace hnt : HTable.create C.env.page 128 = .ok nt := hnt
    obtain ⟨l1, lt', l2, e1, e2, rfl⟩ := Lg.ok_bind hl
    replace e1 := Lg.ok_lift e1
    obtain ⟨rfl, e1⟩ := e1
    rw [hlt] at e1
    cases e1
    obtain ⟨l3, ft', l4, e3, e4, rfl⟩ := Lg.ok_bind e2
    replace e3 := Lg.ok_lift e3
    obtain ⟨rfl, e3⟩ := e3
    rw [hft] at e3
    cases e3
    obtain ⟨l5, nt', l6, e5, e6, rfl⟩ := Lg.ok_bind e4
    replace e5 := Lg.ok_lift e5
    obtain ⟨rfl, e5⟩ := e5
    rw [hnt] at e5
    cases e5
    obtain ⟨l7, ⟨s2, c⟩, l8, e7, e8, rfl⟩ := Lg.ok_bind e6
    rw [(Lg.ok_pure e8).1]
    simp only [List.nil_append, List.append_nil]
    exact wrapCore_log (C := C.at (C.env.vdsoOf s.linkMap)) w hh hsl
      (onMainReal_spec (C := C.at (C.env.vdsoOf s.linkMap)) w (fun _ => henv))
      (onMainL_real (C := C.at (C.env.vdsoOf s.linkMap)) w hh hsl henv) h0
      (dl_honT (C := C.at (C.env.vdsoOf s.linkMap)) henv hbinds) e7
  · have hin : s.inited = true := h.inv.init
    rw [if_pos hin] at hl ⊢
    exact (Lg.ok_pure hl).1

theorem gotchaWrap_log {C : Ctx} (w : World C.env C.U) (hh : C.hon) (hsl : ¬ C.sl)
    (henv : EnvOk C.env C.P) {seen n s A} (hn : 3 ≤ n) (h : Top C seen n s A) {tbl tool}
    (hT : HonA C.env C.P (A.init C.env) tbl) {lg r}
    (hl : Lg.gotchaWrap C.env tbl tool s = .ok (lg, r)) : lg = callLog C.env tbl tool A := by
  unfold Lg.gotchaWrap at hl
  obtain ⟨l1, s1, l2, e1, e2, rfl⟩ := Lg.ok_bind hl
  rw [gotchaInit_log w hh hsl henv h e1]
  obtain ⟨s1', v, G, f1, f2, -⟩ := top_init w (fun _ => henv) hn h
  have herase := Lg.erase_gotchaInit C.env s
  rw [e1, f1] at herase
  cases herase
  rw [wrapCore_log (C := C.at v) w hh hsl
      (onMainReal_spec (C := C.at v) w (fun _ => henv))
      (onMainL_real (C := C.at v) w hh hsl henv) f2.inv (f2.honT hh hT) e2]
  rfl

/-- The second search of gotcha_set_priority finds the tool. -/
theorem getTool_again {ts : Tools} {L : List Nat} (hok : Tools.Ok ts L) {i : Nat} {t : Tool}
    (hi : ts.store[i]? = some t) (v : Int) :
    ∃ j, ({ ts with store := ts.store.modify i (fun t => { t with priority := v }) } : Tools).getTool
      t.name = .ok (some j) := by
  have hilen := (List.getElem?_eq_some_iff.1 hi).1
  set ts2 : Tools := { ts with store := ts.store.modify i (fun t => { t with priority := v }) }
    with hts2
  have hnx : Tools.tnx ts2.store = Tools.tnx ts.store := by
    funext j
    simp only [Tools.tnx, ts2, List.getElem?_modify]
    by_cases e : i = j
    · subst e; cases ts.store[i]? <;> simp
    · simp [e]
  have hi2 : ts2.store[i]? = some { t with priority := v } := by
    simp [ts2, hi]
  have hseg2 : Seg (Tools.tnx ts2.store) ts2.head L none := by rw [hnx]; exact hok.linked
  have hlen2 : ts2.store.length = ts.store.length := by simp [ts2]
  unfold Tools.getTool
  rw [Tools.findLoop_spec hseg2 (by rw [hlen2]; exact hok.length)]
  have hfind : ∃ j, L.find?
      (fun j => decide (((Tools.npAt ts2.store j).map Prod.fst) = some t.name)) = some j := by
    have hmem : i ∈ L := (hok.cover i).2 hilen
    rw [← Option.isSome_iff_exists, List.find?_isSome]
    exact ⟨i, hmem, by simp [Tools.npAt, hi2]⟩
  obtain ⟨j, hj⟩ := hfind
  exact ⟨j, by rw [hj]⟩

theorem setPriority_log {C : Ctx} {s G A} (h : Inv C s G A) {t : Name} {v lg r}
    (hl : Lg.setPriority s.tools t v = .ok (lg, r)) : lg = toolLog A t := by
  unfold Lg.setPriority at hl
  obtain ⟨l1, ⟨ts1, i⟩, l2, e1, e2, rfl⟩ := Lg.ok_bind hl
  rw [getOrCreate_log h e1]
  obtain ⟨L, hL⟩ := h.tools
  have herase := Lg.erase_getOrCreate s.tools t
  rw [e1] at herase
  obtain ⟨ts', L', i', x, f1, f2, f3, f4, -⟩ := Tools.getOrCreate_spec hL t
  rw [f1] at herase
  cases herase
  dsimp only at e2
  obtain ⟨l3, ⟨ts3, j⟩, l4, e3, e4, rfl⟩ := Lg.ok_bind e2
  obtain ⟨j', hj⟩ := getTool_again f2 f3 v
  rw [f4] at hj
  unfold Lg.getOrCreate at e3
  obtain ⟨l5, o, l6, e5, e6, rfl⟩ := Lg.ok_bind e3
  replace e5 := Lg.ok_lift e5
  obtain ⟨rfl, e5⟩ := e5
  rw [hj] at e5
  cases e5
  obtain ⟨rfl, -⟩ := Lg.ok_pure e6
  obtain ⟨l7, ts4, l8, e7, e8, rfl⟩ := Lg.ok_bind e4
  rw [(Lg.ok_lift e7).1, (Lg.ok_lift e8).1]
  simp

theorem gotchaSetPriority_log {C : Ctx} (w : World C.env C.U) (hh : C.hon) (hsl : ¬ C.sl)
    (henv : EnvOk C.env C.P) {seen n s A} (hn : 3 ≤ n) (h : Top C seen n s A) {tool v}
    {lg r} (hl : Lg.gotchaSetPriority C.env tool v s = .ok (lg, r)) :
    lg = prioLog C.env tool v A := by
  unfold Lg.gotchaSetPriority at hl
  obtain ⟨l1, s1, l2, e1, e2, rfl⟩ := Lg.ok_bind hl
  rw [gotchaInit_log w hh hsl henv h e1]
  obtain ⟨s1', v, G, f1, f2, -⟩ := top_init w (fun _ => henv) hn h
  have herase := Lg.erase_gotchaInit C.env s
  rw [e1, f1] at herase
  cases herase
  obtain ⟨l3, _, l4, e3, e4, rfl⟩ := Lg.ok_bind e2
  rw [Lg.ok_say e3]
  obtain ⟨l5, x, l6, e5, e6, rfl⟩ := Lg.ok_bind e4
  rw [setPriority_log f2.inv e5, (Lg.ok_pure e6).1]
  simp [prioLog]

/-! ### The intercepted dlopen -/

/-- One pending function is looked for again: reported if it is not found. -/
theorem perBinding_log {C : Ctx} (w : World C.env C.U) {s G A} (h : Inv C s G A)
    {k : Name} {b : BId} (hk : G.nf k = some b) {lg r}
    (hl : Lg.perBinding C.env (some k) (some b) s = .ok (lg, r)) :
    lg = if A.resolve k = none then [.symbol k] else [] := by
  have hb := h.nfm hk
  obtain ⟨X, L, hX⟩ := List.append_of_mem hb
  have hseg := h.bind.chain k
  have hlen := chain_len h.bind k
  rw [hX] at hseg hlen
  obtain ⟨q, -, hq⟩ := Seg.append.1 hseg
  have hqb : q = some b := hq.1
  subst hqb
  obtain ⟨Y, c, hY, hin⟩ := innermost_spec L b (s.binds.length + 1) hq
    (by simp at hlen; omega)
  have hch : G.ch k = (X ++ Y) ++ [c] := by rw [hX, hY]; simp
  have hc : c ∈ G.ch k := by rw [hch]; simp
  obtain ⟨t, u, hcu, hun⟩ := h.bind.named hc
  obtain ⟨x, hx, -, hxu⟩ := btu_get hcu
  obtain ⟨tl, libs', lm', vd, g1, g2, g3, -, g5, g6⟩ := prepareLoop_spec w (seen := G.seen)
    k u.handle s.linkMap h.objs (v := C.v) h.lib h.vd (h.bind.okh hcu)
  have hbd : s.bind c = .ok x := by simp only [State.bind, hx]
  have hprep : s.prepareSymbol C.env c = prepareLoop C.env k u.handle s.linkMap s := by
    simp only [State.prepareSymbol, State.bind, hx, bind, Except.bind, hxu, hun]
  have hres : A.resolve k = firstDef C.v s.linkMap k := by
    simp only [Abs.resolve, h.vdso, h.libs]
  rw [hres]
  unfold Lg.perBinding at hl
  obtain ⟨l1, c', l2, e1, e2, rfl⟩ := Lg.ok_bind hl
  replace e1 := Lg.ok_lift e1
  obtain ⟨rfl, e1⟩ := e1
  rw [hin] at e1
  cases e1
  obtain ⟨l3, ⟨s1, ok⟩, l4, e3, e4, rfl⟩ := Lg.ok_bind e2
  unfold Lg.prepareSymbol at e3
  obtain ⟨l5, x', l6, e5, e6, rfl⟩ := Lg.ok_bind e3
  replace e5 := Lg.ok_lift e5
  obtain ⟨rfl, e5⟩ := e5
  rw [hbd] at e5
  cases e5
  obtain ⟨l7, ⟨s2, ok'⟩, l8, e7, e8, rfl⟩ := Lg.ok_bind e6
  replace e7 := Lg.ok_lift e7
  obtain ⟨rfl, e7⟩ := e7
  rw [hprep] at e7
  dsimp only at e8
  rcases g6 with ⟨a, d, hfd, -, -, hpe⟩ | ⟨hfd, hpe⟩
  · rw [hpe] at e7
    cases e7
    rw [if_pos rfl] at e8
    obtain ⟨rfl, e8⟩ := Lg.ok_pure e8
    cases e8
    dsimp only at e4
    rw [if_pos rfl] at e4
    obtain ⟨l9, tb, l10, e9, e10, rfl⟩ := Lg.ok_bind e4
    rw [(Lg.ok_lift e9).1, (Lg.ok_pure e10).1, hfd]
    simp
  · rw [hpe] at e7
    cases e7
    rw [if_neg (by simp)] at e8
    obtain ⟨l9, _, l10, e9, e10, rfl⟩ := Lg.ok_bind e8
    rw [Lg.ok_say e9]
    obtain ⟨rfl, e10⟩ := Lg.ok_pure e10
    cases e10
    dsimp only at e4
    rw [if_neg (by simp)] at e4
    rw [(Lg.ok_pure e4).1, hfd, hxu, hun]
    simp

/-- All pending functions: those that are still not found are reported, in an order that depends on the
hash table. -/
theorem foreach_log {C : Ctx} (w : World C.env C.U) (hh : C.hon) {s G} {A : Abs} {libs : List Lib}
    (h : Inv C s G { A with libs := A.libs ++ libs }) :
    ∃ (s' : State) (fs : List Name), foreachEntry (fun x : State × List Msg => x.1.notFound) (Lg.perBindingLog C.env)
        s.notFound.slots.length s.notFound.head (s, []) = .ok (s', fs.map Msg.symbol) ∧
      fs.Nodup ∧ ∀ f, f ∈ fs ↔ A.stack f ≠ [] ∧ A.real f = none ∧
        ({ A with libs := A.libs ++ libs } : Abs).resolve f = none := by
  have hnfr : ∀ f, (G.nf f).isSome ↔ (A.stack f ≠ [] ∧ A.real f = none) := by
    intro f
    rw [h.nfr hh f, ← h.real hh f, show A.stack f = _ from h.stack hh f]
    simp
  obtain ⟨⟨s', tr⟩, m', h1, h2, fs, k1, k2, k3, -⟩ := foreach_tab (σ := State × List Msg)
    (hash := strhash) (fun x : State × List Msg => x.1.notFound)
    (Lg.perBindingLog C.env) (fun k x => decide (x = k)) (by simp)
    (fun x m its => ∃ fs : List Name, x.2 = fs.map Msg.symbol ∧
      (fs ++ its.map (·.1)).Nodup ∧
      (∀ f, f ∈ fs ∨ (f ∈ its.map (·.1) ∧
          ({ A with libs := A.libs ++ libs } : Abs).resolve f = none) ↔
        A.stack f ≠ [] ∧ A.real f = none ∧
          ({ A with libs := A.libs ++ libs } : Abs).resolve f = none) ∧
      (∃ G', Inv C x.1 G' (absIts A libs its) ∧ G'.nf = m ∧
        (∀ k ∈ its.map (·.1), A.stack k ≠ [] ∧ A.real k = none)))
    (by
      rintro ⟨s1, tr1⟩ m k d rest - ⟨fs, q1, q2, q3, G1, g1, g3, g5⟩ hk
      obtain ⟨s2, G2, e1, e2, -, e4⟩ := perBinding_spec w g1 (k := k) (b := d) (by rw [g3]; exact hk)
      obtain ⟨tr2, e1T⟩ := Lg.erase_ok ((Lg.erase_perBinding C.env _ _ s1).trans e1)
      have hlg := perBinding_log w g1 (k := k) (b := d) (by rw [g3]; exact hk) e1T
      have hrs : (absIts A libs ((k, d) :: rest)).resolve k =
          ({ A with libs := A.libs ++ libs } : Abs).resolve k := rfl
      rw [hrs] at hlg
      have g4 : ((k, d) :: rest |>.map (·.1)).Nodup := (List.nodup_append.1 q2).2.1
      have hres : Inv C s2 G2 (absIts A libs rest) := by
        have hx : absIts A libs rest = { ({ absIts A libs ((k, d) :: rest) with
            real := upd (absIts A libs ((k, d) :: rest)).real k
              ((absIts A libs ((k, d) :: rest)).resolve k) } : Abs) with
              real := (absIts A libs rest).real } := rfl
        rw [hx]
        refine e2.setReal ?_
        intro _ f
        simp only [List.map_cons, List.nodup_cons] at g4
        by_cases e : f = k
        · subst e
          have := g5 f (by simp)
          simp only [upd_self, absIts, if_neg g4.1, Abs.dlopen, if_pos this]
          rfl
        · show (absIts A libs rest).real f =
            upd (absIts A libs ((k, d) :: rest)).real k _ f
          rw [upd_ne _ _ e]
          simp only [absIts, List.map_cons, List.mem_cons, e, false_or]
      have hrest : ∀ k ∈ rest.map (·.1), A.stack k ≠ [] ∧ A.real k = none :=
        fun k' hk' => g5 k' (List.mem_cons_of_mem _ hk')
      have hnew : ∃ fs' : List Name, tr1 ++ tr2 = fs'.map Msg.symbol ∧
          (fs' ++ rest.map (·.1)).Nodup ∧
          (∀ f, f ∈ fs' ∨ (f ∈ rest.map (·.1) ∧
              ({ A with libs := A.libs ++ libs } : Abs).resolve f = none) ↔
            A.stack f ≠ [] ∧ A.real f = none ∧
              ({ A with libs := A.libs ++ libs } : Abs).resolve f = none) := by
        dsimp only at q1
        by_cases hr : ({ A with libs := A.libs ++ libs } : Abs).resolve k = none
        · refine ⟨fs ++ [k], ?_, by simpa using q2, ?_⟩
          · rw [hlg, if_pos hr, q1]; simp
          · intro f
            rw [← q3 f]
            simp only [List.mem_append, List.map_cons, List.mem_cons, List.not_mem_nil, or_false]
            constructor
            · rintro ((h | h) | h)
              · exact Or.inl h
              · subst h; exact Or.inr ⟨Or.inl rfl, hr⟩
              · exact Or.inr ⟨Or.inr h.1, h.2⟩
            · rintro (h | ⟨h | h, h'⟩)
              · exact Or.inl (Or.inl h)
              · exact Or.inl (Or.inr h)
              · exact Or.inr ⟨h, h'⟩
        · refine ⟨fs, ?_, ?_, ?_⟩
          · rw [hlg, if_neg hr, q1]; simp
          · refine q2.sublist ?_
            exact List.Sublist.append_left (List.sublist_cons_self _ _) _
          · intro f
            rw [← q3 f]
            simp only [List.map_cons, List.mem_cons]
            constructor
            · rintro (h | h)
              · exact Or.inl h
              · exact Or.inr ⟨Or.inr h.1, h.2⟩
            · rintro (h | ⟨h | h, h'⟩)
              · exact Or.inl h
              · subst h; exact absurd h' hr
              · exact Or.inr ⟨h, h'⟩
      obtain ⟨fs', n1, n2, n3⟩ := hnew
      refine ⟨(s2, tr1 ++ tr2), by simp only [Lg.perBindingLog, e1T], ?_⟩
      rcases e4 with ⟨p1, p2⟩ | ⟨e, p1, p2⟩
      · exact Or.inl ⟨p1, fs', n1, n2, n3, G2, hres, p2.trans g3, hrest⟩
      · exact Or.inr ⟨e, p1, fs', n1, n2, n3, G2, hres, by rw [p2, g3], hrest⟩)
    (s := (s, [])) h.nf
    (by
      intro its hnd hits
      have hmem : ∀ k, k ∈ its.map (·.1) ↔ (G.nf k).isSome := by
        intro k
        constructor
        · intro hk
          obtain ⟨⟨k', d⟩, hk', rfl⟩ := List.mem_map.1 hk
          rw [(hits k' d).1 hk']; rfl
        · intro hk
          obtain ⟨d, hd⟩ := Option.isSome_iff_exists.1 hk
          exact List.mem_map.2 ⟨(k, d), (hits k d).2 hd, rfl⟩
      refine ⟨[], rfl, by simpa using hnd, ?_, G, ?_, rfl, ?_⟩
      · intro f
        rw [hmem, hnfr]
        simp [and_assoc]
      · have hx : absIts A libs its = { ({ A with libs := A.libs ++ libs } : Abs) with
            real := (absIts A libs its).real } := rfl
        rw [hx]
        refine h.setReal ?_
        intro _ f
        simp only [absIts]
        split
        · rfl
        · rename_i hf
          rw [hmem, hnfr f] at hf
          simp only [Abs.dlopen, if_neg hf]
      · intro k hk
        rw [hmem] at hk
        exact (hnfr k).1 hk)
  refine ⟨s', fs, ?_, by simpa using k2, fun f => by simpa using k3 f⟩
  rw [h1]
  dsimp only at k1
  rw [k1]

/-- An intercepted dlopen. -/
theorem dlopen_log {C : Ctx} (w : World C.env C.U) (hh : C.hon) {seen n s G A}
    (h : Post C seen n s G A) {ld : Load} (hld : LoadOk C seen s.linkMap ld) {file flags lg s'}
    (hl : Lg.dlopenWrapper C.env file flags ld s = .ok (lg, s')) :
    ∃ fs : List Name, lg = .dlopenCalled file flags :: fs.map Msg.symbol ∧ fs.Nodup ∧
      ∀ f, f ∈ fs ↔ A.stack f ≠ [] ∧ A.real f = none ∧
        ({ A with libs := A.libs ++ ld.libs } : Abs).resolve f = none := by
  have hI := load_inv h.inv (by rw [h.seen]; exact hld) h.vd
  obtain ⟨s1, fs, e1, e2, e3⟩ := foreach_log w hh hI
  refine ⟨fs, ?_, e2, e3⟩
  unfold Lg.dlopenWrapper at hl
  obtain ⟨l1, a, l2, f1, f2, rfl⟩ := Lg.ok_bind hl
  rw [(Lg.ok_lift f1).1]
  obtain ⟨l3, _, l4, f3, f4, rfl⟩ := Lg.ok_bind f2
  rw [Lg.ok_say f3]
  obtain ⟨l5, ⟨s2, lg2⟩, l6, f5, f6, rfl⟩ := Lg.ok_bind f4
  replace f5 := Lg.ok_lift f5
  obtain ⟨rfl, f5⟩ := f5
  rw [e1] at f5
  cases f5
  obtain ⟨l7, _, l8, f7, f8, rfl⟩ := Lg.ok_bind f6
  rw [Lg.ok_say f7, (Lg.ok_lift f8).1]
  simp

end Gotcha
