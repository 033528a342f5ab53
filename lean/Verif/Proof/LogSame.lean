import Verif.Spec.Log
import Verif.Proof.Debug
/-
The functions with all messages compute what those of `Model/Core` do, and their messages of level 1 are those of
`Model/Debug`.
-/
namespace Gotcha
open HTable
open Spec

theorem ones_append (a b : List Note) : ones (a ++ b) = ones a ++ ones b := by
  induction a with
  | nil => rfl
  | cons n a ih => cases n <;> simp [ones, ih]

namespace Lo

theorem bind_eq {α β : Type} (x : Lo α) (f : α → Lo β) : (x >>= f) = andThen x f := rfl

/-- The same result, and the same messages of level 1. -/
def Same {α : Type} (x : Lo α) (y : Lg α) : Prop :=
  match x, y with
  | .error e, .error e' => e = e'
  | .ok (t, a), .ok (t', b) => ones t = t' ∧ a = b
  | _, _ => False

theorem same_pure {α : Type} (a : α) : Same (pure a : Lo α) (pure a) := ⟨rfl, rfl⟩

theorem same_lift {α : Type} (x : Except Fault α) : Same (lift x) (Lg.lift x) := by
  cases x with
  | error e => rfl
  | ok a => exact ⟨rfl, rfl⟩

theorem same_bind {α β : Type} {x : Lo α} {y : Lg α} {f : α → Lo β} {g : α → Lg β}
    (h : Same x y) (hf : ∀ a, Same (f a) (g a)) : Same (x >>= f) (y >>= g) := by
  rw [bind_eq, Lg.bind_eq]
  cases x with
  | error e =>
    cases y with
    | error e' => exact h
    | ok q => exact h.elim
  | ok p =>
    cases y with
    | error e' => exact h.elim
    | ok q =>
      obtain ⟨t, a⟩ := p
      obtain ⟨t', b⟩ := q
      obtain ⟨h1, rfl⟩ := h
      have hh := hf a
      unfold andThen Lg.andThen
      dsimp only
      revert hh
      cases f a with
      | error e =>
        cases g a with
        | error e' => exact id
        | ok q => exact id
      | ok p =>
        cases g a with
        | error e' => exact id
        | ok q =>
          intro hh
          obtain ⟨t2, a2⟩ := p
          obtain ⟨t3, b2⟩ := q
          obtain ⟨h3, rfl⟩ := hh
          exact ⟨by rw [ones_append, h1, h3], rfl⟩

theorem same_say {β : Type} {ns : List Note} {ms : List Msg} {f : Unit → Lo β} {g : Unit → Lg β}
    (h : ones ns = ms) (hf : Same (f ()) (g ())) : Same (say ns >>= f) (Lg.say ms >>= g) :=
  same_bind (x := say ns) (y := Lg.say ms) ⟨h, rfl⟩ (fun _ => hf)

/-- Messages of other levels do not matter. -/
theorem same_quiet {β : Type} {ns : List Note} {f : Unit → Lo β} {g : Lg β}
    (h : ones ns = []) (hf : Same (f ()) g) : Same (say ns >>= f) g := by
  have := same_say (g := fun _ => g) h hf
  have e : (Lg.say [] >>= fun _ => g) = g := by
    rw [Lg.bind_eq]
    unfold Lg.andThen Lg.say
    dsimp only
    cases g with
    | error e => rfl
    | ok q => rfl
  rwa [e] at this

theorem lift_bind_lg {α β : Type} (x : Except Fault α) (f : α → Except Fault β) :
    Lg.lift (x >>= f) = (Lg.lift x >>= fun a => Lg.lift (f a)) := by
  cases x with
  | error e => rfl
  | ok a =>
    show Lg.lift (f a) = Lg.andThen (Lg.lift (.ok a)) _
    unfold Lg.andThen Lg.lift
    dsimp only
    cases f a <;> rfl

/-- A step of a function without messages of level 1. -/
theorem same_step {α β : Type} {x : Lo α} {y : Except Fault α} {f : α → Lo β} {g : α → Except Fault β}
    (h : Same x (Lg.lift y)) (hf : ∀ a, Same (f a) (Lg.lift (g a))) :
    Same (x >>= f) (Lg.lift (y >>= g)) := by
  rw [lift_bind_lg]
  exact same_bind h hf

theorem same_erase {α : Type} {x : Lo α} {y : Lg α} (h : Same x y) : erase x = Lg.erase y := by
  cases x with
  | error e =>
    cases y with
    | error e' => show Except.error _ = Except.error _; rw [show e = e' from h]
    | ok q => exact h.elim
  | ok p =>
    cases y with
    | error e' => exact h.elim
    | ok q => obtain ⟨h1, h2⟩ := h; show Except.ok _ = Except.ok _; rw [h2]

theorem same_ok {α : Type} {x : Lo α} {y : Lg α} (h : Same x y) {t a} (hx : x = .ok (t, a)) :
    y = .ok (ones t, a) := by
  subst hx
  cases y with
  | error e => exact h.elim
  | ok q => obtain ⟨h1, h2⟩ := h; obtain ⟨t', b⟩ := q; cases h2; cases h1; rfl

/-! ### the functions -/

theorem same_setInternal (s : State) (h v) : Same (setInternal s h v) (Lg.lift (s.setInternal h v)) := by
  unfold setInternal
  have e : Lg.lift (s.setInternal h v) = (Lg.lift (s.setInternal h v) >>= fun s' => pure s') := by
    cases s.setInternal h v <;> rfl
  rw [e]
  refine same_bind (same_lift _) fun s' => ?_
  cases s.handles h with
  | none => exact same_pure _
  | some b => exact same_quiet rfl (same_pure _)

theorem lift_ok_bind {α β : Type} (a : α) (f : α → Lo β) : (lift (.ok a) >>= f) = f a := by
  rw [bind_eq]
  unfold andThen lift
  dsimp only
  cases f a with
  | error e => rfl
  | ok q => rfl

theorem lg_lift_ok_bind {α β : Type} (a : α) (f : α → Lg β) : (Lg.lift (.ok a) >>= f) = f a := by
  rw [Lg.bind_eq]
  unfold Lg.andThen Lg.lift
  dsimp only
  cases f a with
  | error e => rfl
  | ok q => rfl

theorem lift_error_bind {α β : Type} (e : Fault) (f : α → Lo β) : (lift (.error e) >>= f) = lift (.error e) := rfl

theorem bind_assoc' {α β γ : Type} (x : Lo α) (f : α → Lo β) (g : β → Lo γ) :
    ((x >>= f) >>= g) = (x >>= fun a => f a >>= g) := by
  simp only [bind_eq]
  unfold andThen
  cases x with
  | error e => rfl
  | ok p =>
    obtain ⟨t, a⟩ := p
    dsimp only
    cases f a with
    | error e => rfl
    | ok q =>
      obtain ⟨t', b⟩ := q
      dsimp only
      cases g b with
      | error e => rfl
      | ok q => dsimp only; rw [List.append_assoc]

theorem pure_bind' {α β : Type} (a : α) (f : α → Lo β) : (pure a >>= f) = f a := lift_ok_bind a f

/-- A pure result. -/
theorem same_ret {α : Type} (a : α) : Same (pure a : Lo α) (Lg.lift (.ok a)) := ⟨rfl, rfl⟩

theorem same_exported (l : Lib) (f : Name) : Same (exported l f) (Lg.lift (Elf.exported l.img l.addr f)) := by
  unfold exported Elf.exported
  refine same_quiet rfl ?_
  cases Elf.initDynamic l.img with
  | error e => rfl
  | ok o =>
    rw [lift_ok_bind]
    cases o with
    | none => exact same_ret _
    | some d =>
      unfold lookIn
      dsimp only
      by_cases h0 : d.gnuHash = 0 ∧ d.elfHash = 0
      · rw [if_pos h0, if_pos h0]
        exact same_quiet rfl (same_ret _)
      · rw [if_neg h0, if_neg h0]
        have h1 : Same (tryGnu l d f)
            (Lg.lift (if d.gnuHash ≠ 0 then Elf.lookupGnu l.img d f else .ok none)) := by
          unfold tryGnu
          by_cases hg : d.gnuHash ≠ 0
          · rw [if_pos hg, if_pos hg]; exact same_quiet rfl (same_lift _)
          · rw [if_neg hg, if_neg hg]; exact same_ret _
        have h2 : ∀ r1, Same (tryElf l d f r1)
            (Lg.lift (if d.elfHash ≠ 0 ∧ r1 = none then Elf.lookupElf l.img d f else .ok r1)) := by
          intro r1
          unfold tryElf
          by_cases hg : d.elfHash ≠ 0 ∧ r1 = none
          · rw [if_pos hg, if_pos hg]; exact same_quiet rfl (same_lift _)
          · rw [if_neg hg, if_neg hg]; exact same_ret _
        have h3 : ∀ r, Same (judge l d f r) (Lg.lift (match r with
            | none => Except.ok none
            | some i => match l.img.sym (Elf.at' d.symtab 24 i.toNat) with
              | none => .error .outOfBounds
              | some s => if s.size > 0 then .ok (some (s.value + l.addr)) else .ok none)) := by
          intro r
          unfold judge
          cases r with
          | none => exact same_quiet rfl (same_ret _)
          | some i =>
            dsimp only
            cases l.img.sym (Elf.at' d.symtab 24 i.toNat) with
            | none => exact same_lift _
            | some y =>
              dsimp only
              by_cases hs : y.size > 0
              · rw [if_pos hs, if_pos hs]; exact same_quiet rfl (same_ret _)
              · rw [if_neg hs, if_neg hs]; exact same_quiet rfl (same_ret _)
        have h := same_step h1 fun r1 => same_step (h2 r1) h3
        have e : ∀ (x : Except Fault (Option Addr)) y, x = y → ∀ z, Same z (Lg.lift x) → Same z (Lg.lift y) :=
          fun x y h => h ▸ fun _ => id
        refine e _ _ ?_ _ h
        cases (if d.gnuHash ≠ 0 then Elf.lookupGnu l.img d f else .ok none) with
        | error e => rfl
        | ok r1 =>
          show ((if d.elfHash ≠ 0 ∧ r1 = none then Elf.lookupElf l.img d f else .ok r1) >>= _) = _
          dsimp only
          cases (if d.elfHash ≠ 0 ∧ r1 = none then Elf.lookupElf l.img d f else .ok r1) with
          | error e => rfl
          | ok r2 => cases r2 <;> rfl

theorem same_lookupExported (env : Env) (s : State) (f : Name) (l : Lib) :
    Same (lookupExported env s f l) (Lg.lift (s.lookupExported env f l)) := by
  unfold lookupExported State.lookupExported
  obtain ⟨s', b⟩ := s.isVdso env l
  cases b with
  | true => exact same_quiet rfl (same_ret _)
  | false =>
    dsimp only
    have h := same_step (same_exported l f) (f := fun r => pure (s', r)) (g := fun r => .ok (s', r)) fun r => same_ret _
    cases he : Elf.exported l.img l.addr f with
    | error e => rw [he] at h; exact h
    | ok r => rw [he] at h; exact h

theorem same_ensureLib (upd : Bool) (s : State) (l : Lib) : Same (ensureLib upd s l) (Lg.lift (s.ensureLib l)) := by
  unfold ensureLib State.ensureLib
  refine same_step (same_lift _) fun o => ?_
  cases o with
  | some r => exact same_ret _
  | none => exact same_quiet rfl (same_step (same_lift _) fun t => same_ret _)

theorem same_prepareLoop (env : Env) (f : Name) (h : HAddr) (ls : List Lib) : ∀ s : State,
    Same (prepareLoop env f h ls s) (Lg.lift (Gotcha.prepareLoop env f h ls s)) := by
  induction ls with
  | nil => intro s; exact same_ret _
  | cons l ls ih =>
    intro s
    unfold prepareLoop Gotcha.prepareLoop
    refine same_step (same_ensureLib _ s l) fun ⟨s1, r⟩ => ?_
    refine same_step (same_lookupExported env s1 f l) fun ⟨s2, o⟩ => ?_
    cases o with
    | some a => exact same_step (same_setInternal s2 h (some a)) fun s3 => same_ret _
    | none => exact ih s2

theorem same_prepareSymbol (env : Env) (s : State) (b : BId) :
    Same (prepareSymbol env s b) (Lg.prepareSymbol env s b) := by
  unfold prepareSymbol Lg.prepareSymbol State.prepareSymbol
  cases hx : s.bind b with
  | error e => rfl
  | ok x =>
    rw [lift_ok_bind, lg_lift_ok_bind]
    refine same_quiet rfl ?_
    refine same_bind (y := Lg.lift (Gotcha.prepareLoop env x.user.name x.user.handle s.linkMap s))
      (same_prepareLoop _ _ _ _ _) fun ⟨s1, ok⟩ => ?_
    cases ok with
    | true => exact same_pure _
    | false => exact same_say rfl (same_pure _)

theorem same_insertAtHead (s : State) (b head : BId) :
    Same (insertAtHead s b head) (Lg.lift (s.insertAtHead b head)) := by
  unfold insertAtHead State.insertAtHead
  refine same_step (same_lift _) fun xb => ?_
  refine same_step (same_lift _) fun xh => ?_
  refine same_step (same_setInternal _ _ _) fun s2 => ?_
  refine same_step (same_lift _) fun ⟨t, o⟩ => ?_
  refine same_step (same_lift _) fun t => ?_
  exact same_ret _

theorem same_insertAfter (s : State) (b pos : BId) :
    Same (insertAfter s b pos) (Lg.lift (s.insertAfter b pos)) := by
  unfold insertAfter State.insertAfter
  refine same_step (same_lift _) fun xb => ?_
  refine same_step (same_lift _) fun xp => ?_
  refine same_step (same_setInternal _ _ _) fun s2 => ?_
  refine same_step (same_setInternal _ _ _) fun s3 => ?_
  refine same_step (same_lift _) fun xp' => ?_
  exact same_ret _

theorem same_findPos (s : State) (p : Int) (w : Addr) : ∀ (n : Nat) (cur : BId),
    Same (findPos s p w n cur) (Lg.lift (Gotcha.findPos s p w n cur))
  | 0, cur => same_lift _
  | n + 1, cur => by
    unfold findPos Gotcha.findPos
    refine same_step (same_lift _) fun x => ?_
    cases x.next with
    | none => exact same_ret _
    | some k =>
      refine same_step (same_lift _) fun np => ?_
      refine same_quiet rfl ?_
      by_cases h1 : np < p
      · rw [if_pos h1, if_pos h1]; exact same_ret _
      · rw [if_neg h1, if_neg h1]
        by_cases h2 : x.user.wrapper = w
        · rw [if_pos h2, if_pos h2]; exact same_quiet rfl (same_ret _)
        · rw [if_neg h2, if_neg h2]; exact same_findPos s p w n k

theorem same_rewriteRest (s : State) (b : BId) (xb : IBinding) (p : Int) :
    Same (rewriteRest s b xb p) (Lg.lift (Lg.rewriteRest s b xb p)) := by
  unfold rewriteRest Lg.rewriteRest
  refine same_quiet rfl ?_
  refine same_step (same_lift _) fun o => ?_
  cases o with
  | none => exact same_quiet rfl (same_step (same_lift _) fun t => same_ret _)
  | some head =>
    refine same_step (same_lift _) fun hp => ?_
    by_cases h : hp < p
    · rw [if_pos h, if_pos h]
      exact same_quiet rfl (same_step (same_insertAtHead _ _ _) fun t => same_ret _)
    · rw [if_neg h, if_neg h]
      refine same_step (same_findPos _ _ _ _ _) fun o => ?_
      cases o with
      | none => exact same_ret _
      | some pos => exact same_quiet rfl (same_step (same_insertAfter _ _ _) fun t => same_ret _)

theorem same_rewriteOrders {omO : State → Lo State} {omL : State → Lg State}
    (hom : ∀ s, Same (omO s) (omL s)) (s : State) (b : BId) :
    Same (rewriteOrders omO s b) (Lg.rewriteOrders omL s b) := by
  unfold rewriteOrders Lg.rewriteOrders
  refine same_bind (same_lift _) fun xb => ?_
  refine same_bind (same_lift _) fun p => ?_
  unfold atMain
  by_cases h : xb.user.name = nm "main"
  · simp only [if_pos h]
    exact same_bind (hom s) fun s1 => same_rewriteRest _ _ _ _
  · simp only [if_neg h]
    exact same_bind (same_pure s) fun s1 => same_rewriteRest _ _ _ _

theorem map_ranges (page : BitVec 64) (got : Addr) (n : BitVec 32) (o) :
    (ranges page got n o).map Prod.snd = Got.ranges page got n o := by
  unfold ranges Got.ranges
  cases o with
  | none => rfl
  | some p =>
    dsimp only
    split
    · rfl
    · split <;> rfl

theorem map_markCalls (page : BitVec 64) (objs : List Lib) (l : Lib) :
    (markCalls page objs l).map (List.map Prod.snd) = Got.markCalls page objs l := by
  unfold markCalls Got.markCalls
  cases Elf.initDynamic l.img with
  | error e => rfl
  | ok o =>
    cases o with
    | none => rfl
    | some d =>
      dsimp only
      split
      · rfl
      · split
        · rfl
        · show Except.ok _ = _
          rw [map_ranges]

theorem same_unprotect (env : Env) (n : Name) : ∀ (rs : List (MarkKind × Addr × BitVec 64)) (s : State),
    Same (unprotect env n rs s) (Lg.lift (.ok ((rs.map Prod.snd).foldl (State.unprotect env) s)))
  | [], s => same_ret _
  | (k, r) :: rs, s => by
    unfold unprotect
    refine same_quiet rfl ?_
    by_cases h : env.mprotect r = true
    · rw [if_pos h]; exact same_unprotect env n rs _
    · rw [if_neg h]; exact same_quiet rfl (same_unprotect env n rs _)

theorem same_markGotWritable (env : Env) (s : State) (l : Lib) :
    Same (markGotWritable env s l) (Lg.lift (s.markGotWritable env l)) := by
  unfold markGotWritable State.markGotWritable
  rw [← map_markCalls]
  cases markCalls (BitVec.ofNat 64 env.page) s.linkMap l with
  | error e => rfl
  | ok rs => rw [lift_ok_bind]; exact same_unprotect _ _ _ _

theorem same_writeRelocs (t : HTable Name BId) (l : Lib) : ∀ (rl : List (Addr × Name)) (s : State),
    Same (writeRelocs t l rl s) (Lg.lift (Gotcha.writeRelocs t l.addr rl s))
  | [], s => same_ret _
  | (off, f) :: rl, s => by
    unfold writeRelocs Gotcha.writeRelocs
    refine same_step (same_lift _) fun o => ?_
    cases o with
    | none => exact same_writeRelocs t l rl s
    | some b =>
      refine same_step (same_lift _) fun x => ?_
      refine same_step (same_lift _) fun s1 => ?_
      exact same_quiet rfl (same_writeRelocs t l rl s1)

theorem same_updateLib (env : Env) (t : HTable Name BId) (s : State) (l : Lib) (hn : Bool) :
    Same (updateLib env t s l hn) (Lg.lift (s.updateLib env t l hn)) := by
  unfold updateLib State.updateLib
  refine same_step (same_ensureLib _ s l) fun ⟨s1, r⟩ => ?_
  refine same_step (same_lift _) fun ok => ?_
  cases ok with
  | false => exact same_quiet rfl (same_ret _)
  | true =>
    unfold updateRec
    dsimp only
    cases s1.libs[r]? with
    | none => exact same_lift _
    | some rec =>
      simp only [Bool.not_true, Bool.false_eq_true, if_false]
      by_cases hg : rec.gen = s1.gen
      · rw [if_pos hg, if_pos hg]; exact same_quiet rfl (same_ret _)
      · rw [if_neg hg, if_neg hg]
        have fin : ∀ (s2 : State) rl, Same (rewriteGot t s2 l r rl) (Lg.lift (match rl with
            | none => Except.ok s2
            | some rl => do
              let s ← Gotcha.writeRelocs t l.addr rl s2
              Except.ok { s with libs := s.libs.modify r (fun x => { x with gen := s.gen }) })) := by
          intro s2 rl
          cases rl with
          | none => exact same_ret _
          | some rl => exact same_step (same_writeRelocs _ _ _ _) fun s3 => same_ret _
        unfold ensureWritable
        cases rec.writable with
        | true =>
          simp only [if_true]
          rw [pure_bind']
          exact same_step (same_lift _) fun rl => fin s1 rl
        | false =>
          simp only [Bool.false_eq_true, if_false]
          rw [bind_assoc']
          refine same_step (same_markGotWritable _ _ _) fun s2 => ?_
          rw [pure_bind']
          exact same_step (same_lift _) fun rl => fin _ rl

theorem same_updateLibs (env : Env) (t : HTable Name BId) : ∀ (ls : List Lib) (s : State),
    Same (updateLibs env t ls s) (Lg.lift (Gotcha.updateLibs env t ls s))
  | [], s => same_ret _
  | l :: ls, s => by
    unfold updateLibs Gotcha.updateLibs
    exact same_step (same_updateLib _ _ _ _ _) fun s1 => same_updateLibs env t ls s1

theorem same_updateAll (env : Env) (t : HTable Name BId) (s : State) :
    Same (updateAll env t s) (Lg.lift (s.updateAll env t)) := by
  unfold updateAll State.updateAll
  exact same_quiet rfl (same_updateLibs _ _ _ _)

theorem same_getOrCreate (ts : Tools) (name : Name) : Same (getOrCreate ts name) (Lg.getOrCreate ts name) := by
  unfold getOrCreate Lg.getOrCreate
  refine same_bind (same_lift _) fun o => ?_
  cases o with
  | some i => exact same_pure _
  | none =>
    refine same_say rfl ?_
    refine same_bind (same_lift _) fun r => ?_
    exact same_say rfl (same_pure _)

theorem same_processOne {env : Env} {omO : State → Lo State} {omL : State → Lg State}
    (hom : ∀ s, Same (omO s) (omL s)) (n b s nb nf) :
    Same (processOne env omO n b s nb nf) (Lg.processOne env omL n b s nb nf) := by
  unfold processOne Lg.processOne
  refine same_bind (same_lift _) fun xb => ?_
  refine same_bind (same_rewriteOrders hom _ _) fun ⟨s1, r⟩ => ?_
  have fin : ∀ (s2 : State) (k : Nat), Same
      (needBinding env xb b n nb r.binding >>= fun nb => pure (s2, nb, k))
      (Lg.lift (if r.binding then addNew env n nb xb.user.name b else .ok nb) >>= fun nb => pure (s2, nb, k)) := by
    intro s2 k
    refine same_bind ?_ fun nb => same_pure _
    unfold needBinding
    cases r.binding with
    | false => exact same_ret _
    | true => exact same_quiet rfl (same_lift _)
  obtain ⟨lk, bd⟩ := r
  cases lk with
  | false =>
    exact same_bind (same_pure (s1, nf)) fun x => fin x.1 x.2
  | true =>
    show Same (needLookup env xb b s1 nf true >>= _) _
    unfold needLookup
    dsimp only
    rw [bind_assoc']
    refine same_quiet rfl ?_
    rw [bind_assoc']
    refine same_bind (same_prepareSymbol env s1 b) fun ⟨s2, ok⟩ => ?_
    cases ok with
    | true => exact same_bind (same_pure (s2, nf)) fun x => fin x.1 x.2
    | false =>
      simp only [Bool.false_eq_true, if_false]
      rw [bind_assoc']
      refine same_quiet rfl ?_
      rw [bind_assoc']
      refine same_bind (same_lift _) fun t => ?_
      exact same_bind (same_pure _) fun x => fin x.1 x.2

theorem same_processBindings {env : Env} {omO : State → Lo State} {omL : State → Lg State}
    (hom : ∀ s, Same (omO s) (omL s)) (n : Nat) : ∀ (bs : List BId) s nb nf,
    Same (processBindings env omO n bs s nb nf) (Lg.processBindings env omL n bs s nb nf)
  | [], s, nb, nf => same_pure _
  | b :: bs, s, nb, nf => by
    unfold processBindings Lg.processBindings
    exact same_bind (same_processOne hom _ _ _ _ _) fun ⟨s1, nb1, nf1⟩ =>
      same_processBindings hom n bs s1 nb1 nf1

theorem ones_map {α : Type} (f : α → Note) (h : ∀ a, ones [f a] = []) (l : List α) : ones (l.map f) = [] := by
  induction l with
  | nil => rfl
  | cons a l ih =>
    have e : List.map f (a :: l) = [f a] ++ l.map f := rfl
    rw [e, ones_append, h, ih]; rfl

theorem ones_mapIdx {α : Type} (l : List α) : ∀ (f : Nat → α → Note), (∀ i a, ones [f i a] = []) →
    ones (l.mapIdx f) = [] := by
  induction l with
  | nil => intro f h; rfl
  | cons a l ih =>
    intro f h
    rw [List.mapIdx_cons]
    have e : ∀ (x : Note) (xs : List Note), x :: xs = [x] ++ xs := fun _ _ => rfl
    rw [e, ones_append, h, ih _ fun i a => h (i + 1) a]; rfl

theorem ones_opening (table : List UBinding) (tool) : ones (opening table tool) = [.wrapCalled tool table.length] := by
  unfold opening
  show _ :: ones (_ ++ _) = _
  rw [ones_append, ones_mapIdx _ _ (fun i a => rfl)]
  show _ :: ([] ++ ones (List.map _ _)) = _
  rw [ones_map _ (fun a => rfl)]; rfl

theorem same_wrapCore {env : Env} {omO : State → Lo State} {omL : State → Lg State}
    (hom : ∀ s, Same (omO s) (omL s)) (table tool s) :
    Same (wrapCore env omO table tool s) (Lg.wrapCore env omL table tool s) := by
  unfold wrapCore Lg.wrapCore
  refine same_say (ones_opening _ _) ?_
  refine same_bind (same_getOrCreate _ _) fun ⟨ts, tid⟩ => ?_
  refine same_quiet rfl ?_
  refine same_quiet rfl ?_
  refine same_bind (same_processBindings hom _ _ _ _ _) fun ⟨s1, nb, nf⟩ => ?_
  refine same_bind ?_ fun s2 => ?_
  · cases nb with
    | none => exact same_ret _
    | some t => exact same_updateAll _ _ _
  · unfold closing
    split
    · exact same_say rfl (same_pure _)
    · exact same_say rfl (same_pure _)

theorem same_onMainReal (env : Env) (s : State) : Same (onMainReal env s) (Lg.onMainReal env s) := by
  unfold onMainReal Lg.onMainReal
  split
  · exact same_pure _
  · refine same_quiet rfl ?_
    refine same_bind (same_wrapCore (fun s => same_pure s) _ _ _) fun ⟨s1, c⟩ => ?_
    exact same_bind (same_wrapCore (fun s => same_pure s) _ _ _) fun ⟨s2, c⟩ => same_pure _

theorem same_gotchaInit (env : Env) (s : State) : Same (gotchaInit env s) (Lg.gotchaInit env s) := by
  unfold gotchaInit Lg.gotchaInit
  split
  · exact same_pure _
  · refine same_bind (same_lift _) fun lt => ?_
    refine same_bind (same_lift _) fun ft => ?_
    refine same_bind (same_lift _) fun nt => ?_
    exact same_bind (same_wrapCore (same_onMainReal env) _ _ _) fun ⟨s2, c⟩ => same_pure _

theorem same_gotchaWrap (env : Env) (table tool s) :
    Same (gotchaWrap env table tool s) (Lg.gotchaWrap env table tool s) :=
  same_bind (same_gotchaInit env s) fun s1 => same_wrapCore (same_onMainReal env) _ _ _

theorem same_gotchaSetPriority (env : Env) (tool v s) :
    Same (gotchaSetPriority env tool v s) (Lg.gotchaSetPriority env tool v s) := by
  unfold gotchaSetPriority Lg.gotchaSetPriority
  refine same_bind (same_gotchaInit env s) fun s1 => ?_
  refine same_say rfl ?_
  refine same_bind ?_ fun ts => same_pure _
  unfold setPriority Lg.setPriority
  refine same_bind (same_getOrCreate _ _) fun ⟨ts, i⟩ => ?_
  refine same_bind (same_getOrCreate _ _) fun ⟨ts2, j⟩ => ?_
  exact same_bind (same_lift _) fun t => same_lift _

theorem same_innermost (s : State) : ∀ (n : Nat) (b : BId),
    Same (innermost s n b) (Lg.lift (Gotcha.innermost s n b))
  | 0, b => same_lift _
  | n + 1, b => by
    unfold innermost Gotcha.innermost
    refine same_step (same_lift _) fun x => ?_
    cases x.next with
    | none => exact same_ret _
    | some k => exact same_quiet rfl (same_innermost s n k)

theorem same_perBinding (env : Env) (key data) (s : State) :
    Same (perBinding env key data s) (Lg.perBinding env key data s) := by
  unfold perBinding Lg.perBinding
  cases key with
  | none => exact same_lift _
  | some k =>
    cases data with
    | none => exact same_lift _
    | some b =>
      refine same_quiet rfl ?_
      refine same_bind (same_innermost _ _ _) fun c => ?_
      refine same_bind (same_prepareSymbol _ _ _) fun ⟨s1, ok⟩ => ?_
      cases ok with
      | false => exact same_quiet rfl (same_pure _)
      | true => exact same_bind (same_lift _) fun ⟨t, o⟩ => same_pure _

/-- The two walks through the functions not found go together. -/
theorem foreach_same (env : Env) : ∀ (n : Nat) (i : Option Nat) (x : State × List Note),
    foreachEntry (fun x : State × List Msg => x.1.notFound) (Lg.perBindingLog env) n i (x.1, ones x.2) =
      (foreachEntry (fun x : State × List Note => x.1.notFound) (perBindingLog env) n i x).map
        (fun y => (y.1, ones y.2))
  | 0, none, x => rfl
  | n + 1, none, x => rfl
  | 0, some i, x => rfl
  | n + 1, some i, x => by
    unfold foreachEntry
    dsimp only
    cases hs : x.1.notFound.slots[i]? with
    | none => rfl
    | some e =>
      dsimp only
      have := same_perBinding env e.key e.data x.1
      unfold perBindingLog Lg.perBindingLog
      dsimp only
      cases hl : perBinding env e.key e.data x.1 with
      | error f =>
        rw [hl] at this
        cases hg : Lg.perBinding env e.key e.data x.1 with
        | error f' => rw [hg] at this; cases this; rfl
        | ok y => rw [hg] at this; exact this.elim
      | ok y =>
        obtain ⟨lg, s1, st⟩ := y
        rw [same_ok this hl]
        dsimp only
        cases st with
        | true => simp only [Except.map, ones_append]
        | false =>
          dsimp only
          cases hs' : s1.notFound.slots[i]? with
          | none => rfl
          | some e' =>
            dsimp only
            rw [← ones_append]
            exact foreach_same env n e'.next (s1, x.2 ++ lg)

theorem same_dlopenWrapper (env : Env) (file flags) (ld : Load) (s : State) :
    Same (dlopenWrapper env file flags ld s) (Lg.dlopenWrapper env file flags ld s) := by
  unfold dlopenWrapper Lg.dlopenWrapper
  refine same_bind (same_lift _) fun a => ?_
  refine same_say rfl ?_
  refine same_quiet rfl ?_
  have := foreach_same env (s.load ld).notFound.slots.length (s.load ld).notFound.head (s.load ld, [])
  show Same _ (Lg.lift (foreachEntry _ _ _ _ _) >>= _)
  rw [show (s.load ld, ([] : List Msg)) = ((s.load ld, ([] : List Note)).1, ones (s.load ld, ([] : List Note)).2) from rfl,
    this]
  cases foreachEntry (fun x : State × List Note => x.1.notFound) (perBindingLog env)
      (s.load ld).notFound.slots.length (s.load ld).notFound.head (s.load ld, []) with
  | error f => rfl
  | ok x =>
    obtain ⟨s1, lg⟩ := x
    have e : (Lg.lift (Except.map (fun y : State × List Note => (y.1, ones y.2)) (.ok (s1, lg))) >>= fun x =>
        (Lg.say x.2 >>= fun _ => Lg.lift (x.1.updateAll env x.1.funTab) : Lg State)) =
        (Lg.say (ones lg) >>= fun _ => Lg.lift (s1.updateAll env s1.funTab)) := by
      simp only [Lg.bind_eq, Except.map]
      unfold Lg.andThen Lg.lift Lg.say
      dsimp only
      cases s1.updateAll env s1.funTab <;> rfl
    rw [lift_ok_bind]
    refine (show Same _ _ → Same _ _ from fun h => ?_) (same_say (ns := lg) rfl
      (f := fun _ => say [Note.updateGots] >>= fun _ => updateAll env s1.funTab s1)
      (g := fun _ => Lg.lift (s1.updateAll env s1.funTab)) (same_quiet rfl (same_updateAll _ _ _)))
    rw [← e] at h
    exact h

/-! ### all of the interface -/

theorem erase_gotchaInit (env : Env) (s : State) : erase (gotchaInit env s) = Gotcha.gotchaInit env s :=
  (same_erase (same_gotchaInit env s)).trans (Lg.erase_gotchaInit env s)

theorem erase_bind' {α β : Type} (x : Lo α) (f : α → Lo β) :
    erase (x >>= f) = (erase x >>= fun a => erase (f a)) := by
  rw [bind_eq]
  unfold andThen
  cases x with
  | error e => rfl
  | ok p =>
    obtain ⟨t, a⟩ := p
    show erase (match f a with | .error e => .error e | .ok (t', b) => .ok (t ++ t', b)) =
      erase (f a)
    cases f a with
    | error e => rfl
    | ok q => rfl

theorem erase_lift' {α : Type} (x : Except Fault α) : erase (lift x) = x := by
  cases x <;> rfl

theorem erase_same_lift {α : Type} {x : Lo α} {y : Except Fault α} (h : Same x (Lg.lift y)) : erase x = y :=
  (same_erase h).trans (Lg.erase_lift y)

theorem erase_gotchaGetPriority (env : Env) (tool : Name) (s : State) :
    erase (gotchaGetPriority env tool s) = Gotcha.gotchaGetPriority env tool s := by
  unfold gotchaGetPriority Gotcha.gotchaGetPriority
  rw [erase_bind', erase_gotchaInit]
  congr 1; funext s1
  rw [erase_bind', erase_lift']
  congr 1; funext o
  cases o <;> rfl

/-- Printing all messages does not change what an event does. -/
theorem erase_stepOp (env : Env) (file flags) (op : Op) (s : State) :
    erase (stepOp env file flags op s) = Gotcha.stepOp env op s := by
  cases op with
  | wrap tbl tool =>
    unfold stepOp Gotcha.stepOp
    rw [erase_bind', same_erase (same_gotchaWrap env tbl tool s), Lg.erase_gotchaWrap]
    rfl
  | setPriority tool v =>
    unfold stepOp Gotcha.stepOp
    rw [erase_bind', same_erase (same_gotchaSetPriority env tool v s), Lg.erase_gotchaSetPriority]
    rfl
  | getPriority tool =>
    unfold stepOp Gotcha.stepOp
    rw [erase_bind', erase_gotchaGetPriority]
    rfl
  | setFilter f => rfl
  | dlopen ld =>
    unfold stepOp Gotcha.stepOp
    dsimp only
    by_cases hi : s.inited = true
    · rw [if_pos hi, if_pos hi, erase_bind', same_erase (same_dlopenWrapper env file flags ld s), Lg.erase_dlopenWrapper]
      rfl
    · rw [if_neg hi, if_neg hi]; rfl
  | load ld => rfl
  | unload dead => rfl

theorem same_firstExporting (env : Env) (f : Name) : ∀ (ls : List Lib) (s : State),
    Same (firstExporting env f ls s) (Lg.lift (Gotcha.firstExporting env f ls s))
  | [], s => same_quiet rfl (same_ret _)
  | l :: ls, s => by
    unfold firstExporting Gotcha.firstExporting
    refine same_step (same_lookupExported _ _ _ _) fun ⟨s1, o⟩ => ?_
    cases o with
    | some a => exact same_ret _
    | none => exact same_quiet rfl (same_firstExporting env f ls s1)

theorem same_rtldNextLookup (env : Env) (f : Name) (who : Addr) (s : State) :
    Same (rtldNextLookup env f who s) (Lg.lift (Gotcha.rtldNextLookup env f who s)) := by
  unfold rtldNextLookup Gotcha.rtldNextLookup
  cases s.linkMap.findSome? (headerCallback s.linkMap who) with
  | none => exact same_lift _
  | some ls =>
    cases ls with
    | nil => exact same_lift _
    | cons l ls => exact same_firstExporting _ _ _ _

theorem same_dlsymWrapper (env : Env) (real : RealDl) (h : DlHandle) (f : Name) (who : Addr) (s : State) :
    Same (dlsymWrapper env real h f who s) (Lg.lift (Gotcha.dlsymWrapper env real h f who s)) := by
  unfold dlsymWrapper Gotcha.dlsymWrapper
  refine same_step (same_lift _) fun a => ?_
  refine same_step (same_lift _) fun a' => ?_
  refine same_quiet rfl ?_
  refine same_step (same_lift _) fun o => ?_
  have other : Same (match h with
      | .next => do
        let (s, l) ← rtldNextLookup env f who s
        match l with
        | some l => pure (s, real.dlsym (real.dlopen l.name) f)
        | none => pure (s, 0)
      | .other _ => pure (s, real.dlsym h f))
      (Lg.lift (match h with
      | .next => do
        let (s, l) ← Gotcha.rtldNextLookup env f who s
        match l with
        | some l => Except.ok (s, real.dlsym (real.dlopen l.name) f)
        | none => .ok (s, 0)
      | .other _ => .ok (s, real.dlsym h f))) := by
    cases h with
    | next =>
      refine same_step (same_rtldNextLookup _ _ _ _) fun ⟨s1, l⟩ => ?_
      cases l with
      | none => exact same_ret _
      | some l => exact same_ret _
    | other n => exact same_ret _
  cases o with
  | none => exact other
  | some b =>
    refine same_step (same_lift _) fun x => ?_
    by_cases hv : real.dlsym h f = 0
    · rw [if_pos hv, if_pos hv]
      cases s.handles x.user.handle with
      | none => exact same_lift _
      | some c => exact same_ret _
    · rw [if_neg hv, if_neg hv]
      refine same_step (same_lift _) fun w => ?_
      by_cases hw : w = real.dlsym h f
      · rw [if_pos hw, if_pos hw]; exact same_ret _
      · rw [if_neg hw, if_neg hw]; exact other

end Lo
end Gotcha
