import Verif.Spec.Race
import Verif.Proof.Threads
import Verif.Proof.View
/-
Threads interrupted between the lookup of a function and its use.
-/
namespace Gotcha
open Spec HTable

/-- A lookup that is up to date: the two halves make the whole. -/
theorem place_eq {env : Env} {om : State → Except Fault State} {n : Nat} {s : State} {b : BId} {x r p}
    (hx : s.bind b = .ok x) (hp : s.bindPriority b = .ok p) (hm : x.user.name ≠ nm "main")
    (hr : nameLookup s.funTab x.user.name = .ok r) (nb : Option (HTable Name BId)) (nf : Nat) :
    processBindings env om n [b] s nb nf =
      (placeAt s b r >>= fun y => afterPlace env n x.user.name b nb nf y.1 y.2) := by
  unfold processBindings rewriteOrders placeAt afterPlace
  simp only [hx, hp, hm, hr, if_false, bind, Except.bind, processBindings]
  cases r with
  | none => simp only
  | some h =>
    simp only
    cases s.bindPriority h with
    | error e => rfl
    | ok q =>
      simp only
      by_cases hq : q < p
      · simp only [hq, if_true]
      · simp only [hq, if_false]
        cases findPos s p x.user.wrapper (s.binds.length + 1) h with
        | error e => rfl
        | ok o =>
          cases o with
          | none => rfl
          | some pos =>
            simp only

theorem found_eq {env : Env} {n : Nat} {s : State} {b : BId} {bs x r p}
    (hx : s.bind b = .ok x) (hp : s.bindPriority b = .ok p) (hm : x.user.name ≠ nm "main")
    (hr : nameLookup s.funTab x.user.name = .ok r) (nb : Option (HTable Name BId)) (nf : Nat) :
    stepFine env (.found n b bs nb nf r) s =
      (stepThread env (.bind n (b :: bs) nb nf) s).map (fun y => (y.1, .at y.2)) := by
  rw [stepFine, stepThread, place_eq hx hp hm hr, hx]
  simp only [bind, Except.bind]
  cases placeAt s b r with
  | error e => rfl
  | ok y =>
    simp only
    cases afterPlace env n x.user.name b nb nf y.1 y.2 with
    | error e => rfl
    | ok z => rfl

theorem find_eq {env : Env} {n : Nat} {s : State} {b : BId} {bs x r p}
    (hx : s.bind b = .ok x) (hp : s.bindPriority b = .ok p) (hm : x.user.name ≠ nm "main")
    (hr : nameLookup s.funTab x.user.name = .ok r) (nb : Option (HTable Name BId)) (nf : Nat) :
    stepFine env (.at (.bind n (b :: bs) nb nf)) s = .ok (s, .found n b bs nb nf r) := by
  rw [stepFine, findHead]
  simp only [hx, hp, hm, hr, if_false, bind, Except.bind]

/-- What is known about the next binding of a thread. -/
theorem TInv.next {C : Ctx} {jobs B log ts s G A} (h : TInv C jobs B log ts s G A)
    {i n : Nat} {b : BId} {bs nb nf} (hi : ts[i]? = some (Thread.bind n (b :: bs) nb nf)) :
    ∃ x p r, s.bind b = .ok x ∧ s.bindPriority b = .ok p ∧
      nameLookup s.funTab x.user.name = .ok r ∧ r = (G.ch x.user.name).head? ∧ G.pend b ∧
      (∃ j ∈ jobs, x.user ∈ j.table) := by
  have hlt : i < jobs.length := by rw [← h.len]; exact (List.getElem?_eq_some_iff.1 hi).1
  obtain ⟨tbl, tool, tid, p, dn, us, m, h1, -, h3, -, -, h4, h5, h6, -, -, -⟩ :=
    h.ok i _ _ hi (List.getElem?_eq_getElem hlt)
  cases us with
  | nil => simp at h4
  | cons u us =>
    simp only [List.map_cons, List.cons.injEq] at h4
    obtain ⟨x, hx, hxt, hxu⟩ := btu_get h4.1
    refine ⟨x, p, (G.ch x.user.name).head?, by simp [State.bind, hx], ?_, ?_, rfl, h5 b (by simp), _,
      List.getElem_mem hlt, ?_⟩
    · rw [bindPriority_ok h4.1 (h.inv.bind.okt h4.1)]
      unfold prB
      simp only [h4.1, h6]
      rfl
    · exact nameLookup_tab h.inv.fn _
    · rw [h1, hxu]; show u ∈ tbl; rw [← h3]; simp

/-- As long as no lookup is stale, the machine does what the coarser machine does. -/
theorem fine_run {C : Ctx} (w : World C.env C.U) (henv : C.hon → EnvOk C.env C.P) (hh : C.hon)
    (hs : ¬ C.sl) {jobs B} (hj : JobsOk C jobs) (hm : ∀ j ∈ jobs, ∀ u ∈ j.table, u.name ≠ nm "main")
    (σ : List Nat) : ∀ {log} {ts : List Fine} {s G A}, TInv C jobs B log (ts.map coarse) s G A →
    NeverStale C.env σ ts s → ∃ σ' s' ts', runFine C.env σ ts s = .ok (s', ts') ∧
      runThreads C.env σ' (ts.map coarse) s = .ok (s', ts'.map coarse) := by
  induction σ with
  | nil => intro log ts s G A h _; exact ⟨[], s, ts, rfl, rfl⟩
  | cons i σ ih =>
    intro log ts s G A h hn
    cases hi : ts[i]? with
    | none =>
      unfold NeverStale at hn
      simp only [hi] at hn
      obtain ⟨σ', s', ts', e1, e2⟩ := ih h hn
      exact ⟨σ', s', ts', by simp only [runFine, hi]; exact e1, e2⟩
    | some t =>
      unfold NeverStale at hn
      simp only [hi] at hn
      obtain ⟨hu, hn⟩ := hn
      have hic : (ts.map coarse)[i]? = some (coarse t) := by rw [List.getElem?_map, hi]; rfl
      have hl := (List.getElem?_eq_some_iff.1 hic).1
      rw [h.len] at hl
      -- a step of the coarser machine
      have go : (∀ s1 t1, stepThread C.env (coarse t) s = .ok (s1, t1) →
          stepFine C.env t s = .ok (s1, .at t1)) → ∃ σ' s' ts', runFine C.env (i :: σ) ts s = .ok (s', ts') ∧
          runThreads C.env σ' (ts.map coarse) s = .ok (s', ts'.map coarse) := by
        intro hstep
        obtain ⟨s1, t1, G1, A1, log1, e1, e2, -⟩ := step_all w henv hh hs hj h hic
          (List.getElem?_eq_getElem hl)
        have e3 := hstep _ _ e1
        have hset : (ts.map coarse).set i t1 = (ts.set i (.at t1)).map coarse := by
          rw [List.map_set]; rfl
        rw [hset] at e2
        obtain ⟨σ', s', ts', e4, e5⟩ := ih e2 (hn _ _ e3)
        refine ⟨i :: σ', s', ts', by simp only [runFine, hi, e3, bind, Except.bind]; exact e4, ?_⟩
        simp only [runThreads, hic, e1, bind, Except.bind]
        rw [hset]
        exact e5
      cases t with
      | found n b bs nb nf r =>
        obtain ⟨x, p, r', h1, h2, h3, -, -, j, hjm, hju⟩ := h.next hic
        obtain ⟨x', h1', h3'⟩ := hu
        rw [h1] at h1'
        cases h1'
        refine go fun s1 t1 e => ?_
        rw [found_eq h1 h2 (hm j hjm _ hju) h3', show stepThread C.env (.bind n (b :: bs) nb nf) s = _ from e]
        rfl
      | «at» t =>
        by_cases hb : ∃ n b bs nb nf, t = .bind n (b :: bs) nb nf
        · obtain ⟨n, b, bs, nb, nf, rfl⟩ := hb
          obtain ⟨x, p, r, h1, h2, h3, -, -, j, hjm, hju⟩ := h.next hic
          have e3 : stepFine C.env (.at (.bind n (b :: bs) nb nf)) s = _ :=
            find_eq h1 h2 (hm j hjm _ hju) h3 nb nf
          have hset : ts.map coarse = (ts.set i (.found n b bs nb nf r)).map coarse := by
            rw [List.map_set]
            refine (List.ext_getElem? fun k => ?_).symm
            rw [List.getElem?_set]
            split
            · rename_i hk
              subst hk
              rw [hic]
              rw [if_pos (by rw [h.len]; exact hl)]
              rfl
            · rfl
          rw [hset] at h
          obtain ⟨σ', s', ts', e4, e5⟩ := ih h (hn _ _ e3)
          refine ⟨σ', s', ts', by simp only [runFine, hi, e3, bind, Except.bind]; exact e4, ?_⟩
          rw [hset]
          exact e5
        · refine go fun s1 t1 e => ?_
          cases t with
          | bind n todo nb nf =>
            cases todo with
            | cons b bs => exact absurd ⟨n, b, bs, nb, nf, rfl⟩ hb
            | nil =>
              rw [stepFine]
              · rw [show stepThread C.env (.bind n [] nb nf) s = _ from e]; rfl
              · intro n b bs nb nf e; cases e
          | _ =>
            rw [stepFine]
            · change stepThread C.env _ s = _ at e
              simp only [coarse] at e
              rw [e]; rfl
            · intro n b bs nb nf e; cases e

/-! ### both threads use the same lookup -/

/-- All that matters of a step here: binding `b` now continues with `a`. -/
structure Placed1 (s s' : State) (b : BId) (a : Addr) : Prop where
  handles : s'.handles = s.handles
  linkMap : s'.linkMap = s.linkMap
  tools : s'.tools = s.tools
  others : ∀ c, c ≠ b → s'.binds[c]? = s.binds[c]?
  this : ∃ x, s'.binds[b]? = some x ∧ x.wrappee = some a
  len : s'.binds.length = s.binds.length

theorem afterPlace_head {env : Env} {n name b nb nf s s' z}
    (e : afterPlace env n name b nb nf s ⟨false, true⟩ = .ok (s', z)) : s' = s := by
  change (addNew env n nb name b >>= fun nb => Except.ok (s, nb, nf)) = _ at e
  obtain ⟨t, -, e⟩ := ebind e
  cases e
  rfl

theorem afterPlace_new {env : Env} {n name b nb nf s s' z s4}
    (e : afterPlace env n name b nb nf s ⟨true, true⟩ = .ok (s', z))
    (hp : s.prepareSymbol env b = .ok (s4, true)) : s' = s4 := by
  unfold afterPlace at e
  simp only [hp, bind, Except.bind, if_true] at e
  cases ha : addNew env n nb name b with
  | error f => rw [ha] at e; cases e
  | ok t => rw [ha] at e; cases e; rfl

theorem placed_none {env : Env} {U seen} (w : World env U) {v s s' t' n b bs nb nf x a lm}
    (hx : s.bind b = .ok x) (hh : s.handles x.user.handle = some b)
    (hL : LibInv U seen s.libTab s.libs lm) (hv : VdOk env v s.vdso s.linkMap)
    (ho : ∀ l ∈ s.linkMap, U l ∧ seen l) (hf : firstDef v s.linkMap x.user.name = some a)
    (e : stepFine env (.found n b bs nb nf none) s = .ok (s', t')) :
    Placed1 s s' b a ∧ (∃ lm', LibInv U seen s'.libTab s'.libs lm') ∧ VdOk env v s'.vdso s'.linkMap := by
  have hlt : b < s.binds.length := by
    unfold State.bind at hx
    split at hx
    · cases hx
    · rename_i y hy; exact (List.getElem?_eq_some_iff.1 hy).1
  rw [stepFine] at e
  obtain ⟨x1, e1, e⟩ := ebind e
  rw [hx] at e1
  cases e1
  obtain ⟨⟨s1, w1⟩, e1, e⟩ := ebind e
  rw [placeAt] at e1
  obtain ⟨x1, e2, e1⟩ := ebind e1
  rw [hx] at e2
  cases e2
  obtain ⟨q, -, e1⟩ := ebind e1
  obtain ⟨t, -, e1⟩ := ebind e1
  cases e1
  obtain ⟨⟨s2, nb2, nf2⟩, e1, e⟩ := ebind e
  cases e
  obtain ⟨tt, libs', lm', vd, g1, -, g3, -, -, g6⟩ := prepareLoop_spec w x.user.name x.user.handle s.linkMap ho
    (s := { s with funTab := t }) hL hv ⟨b, hh, hlt⟩
  rcases g6 with ⟨a', b', h1, h2, h3, h4⟩ | ⟨h1, -⟩
  · rw [hf] at h1
    cases h1
    rw [show s.handles x.user.handle = some b' from h2] at hh
    cases hh
    have e5 := afterPlace_new e1 (by
      rw [State.prepareSymbol, show State.bind { s with funTab := t } b = _ from hx]
      exact h4)
    subst e5
    have hget : s.binds[b]? = some x := by
      unfold State.bind at hx
      split at hx
      · cases hx
      · rename_i y hy; cases hx; exact hy
    refine ⟨⟨rfl, rfl, rfl, ?_, ?_, ?_⟩, ⟨lm', g1⟩, g3⟩
    · intro c hc
      show (s.binds.modify b _)[c]? = _
      rw [List.getElem?_modify_ne _ _ (Ne.symm hc)]
    · refine ⟨{ x with wrappee := some a }, ?_, rfl⟩
      show (s.binds.modify b _)[b]? = _
      rw [List.getElem?_modify_eq, hget]
      rfl
    · show (s.binds.modify b _).length = _
      rw [List.length_modify]
  · rw [hf] at h1
    cases h1

theorem placed_head {env : Env} {s s' : State} {t' n b bs nb nf x top y p q}
    (hx : s.bind b = .ok x) (hh : s.handles x.user.handle = some b) (hy : s.bind top = .ok y)
    (hne : top ≠ b) (hp : s.bindPriority top = .ok p) (hq : s.bindPriority b = .ok q) (hpq : p < q)
    (e : stepFine env (.found n b bs nb nf (some top)) s = .ok (s', t')) :
    Placed1 s s' b y.user.wrapper := by
  have hget : s.binds[b]? = some x := by
    unfold State.bind at hx
    split at hx
    · cases hx
    · rename_i y hy; cases hx; exact hy
  have hlt := (List.getElem?_eq_some_iff.1 hget).1
  rw [stepFine] at e
  obtain ⟨x1, e1, e⟩ := ebind e
  rw [hx] at e1
  cases e1
  obtain ⟨⟨s1, w1⟩, e1, e⟩ := ebind e
  rw [placeAt] at e1
  obtain ⟨x1, e2, e1⟩ := ebind e1
  rw [hx] at e2
  cases e2
  obtain ⟨q', e2, e1⟩ := ebind e1
  rw [hq] at e2
  cases e2
  obtain ⟨p', e2, e1⟩ := ebind e1
  rw [hp] at e2
  cases e2
  rw [if_pos hpq] at e1
  obtain ⟨s2, e2, e1⟩ := ebind e1
  cases e1
  obtain ⟨⟨s3, nb3, nf3⟩, e1, e⟩ := ebind e
  cases e
  have e5 := afterPlace_head e1
  subst e5
  clear e1
  rw [State.insertAtHead] at e2
  obtain ⟨x1, e1, e2⟩ := ebind e2
  rw [hx] at e1
  cases e1
  obtain ⟨y1, e1, e2⟩ := ebind e2
  rw [hy] at e1
  cases e1
  obtain ⟨s5, e7, e2⟩ := ebind e2
  obtain ⟨z, -, e2⟩ := ebind e2
  obtain ⟨z', -, e2⟩ := ebind e2
  cases e2
  unfold State.setInternal at e7
  simp only [hh, List.length_modify, hlt, if_true] at e7
  cases e7
  refine ⟨rfl, rfl, rfl, ?_, ?_, ?_⟩
  · intro c hc
    show ((s.binds.modify b _).modify b _)[c]? = _
    rw [List.getElem?_modify_ne _ _ (Ne.symm hc), List.getElem?_modify_ne _ _ (Ne.symm hc)]
  · refine ⟨{ x with next := some top, wrappee := some y.user.wrapper }, ?_, rfl⟩
    show ((s.binds.modify b _).modify b _)[b]? = _
    rw [List.getElem?_modify_eq, List.getElem?_modify_eq, hget]
    rfl
  · show ((s.binds.modify b _).modify b _).length = _
    rw [List.length_modify, List.length_modify]

theorem Placed1.wrappee {s s' : State} {b a} (h : Placed1 s s' b a) {hd : HAddr} (hb : s.handles hd = some b) :
    s'.getWrappee hd = .ok a := by
  obtain ⟨x, hx, hw⟩ := h.this
  unfold State.getWrappee State.bind
  rw [h.handles, hb]
  simp only [hx, hw]

theorem Placed1.other {s s' : State} {b a} (h : Placed1 s s' b a) {hd : HAddr} (hb : s.handles hd ≠ some b) :
    s'.getWrappee hd = s.getWrappee hd := by
  unfold State.getWrappee State.bind
  rw [h.handles]
  cases hc : s.handles hd with
  | none => rfl
  | some c =>
    simp only
    rw [h.others c (fun e => hb (by rw [hc, e]))]

theorem Placed1.bind {s s' : State} {b a} (h : Placed1 s s' b a) {c} (hc : c ≠ b) :
    s'.bind c = s.bind c := by
  unfold State.bind
  rw [h.others c hc]

theorem Placed1.priority {s s' : State} {b a} (h : Placed1 s s' b a) {c} (hc : c ≠ b) :
    s'.bindPriority c = s.bindPriority c := by
  unfold State.bindPriority
  rw [h.bind hc, h.tools]

theorem Spec.Calls.mono {P : Addr → Option HAddr} {s s' : State}
    (h : ∀ hd a, s.getWrappee hd = .ok a → s'.getWrappee hd = .ok a) {a path} (hc : Calls P s a path) :
    Calls P s' a path := by
  induction hc with
  | stop hp => exact .stop hp
  | cont hp hw _ ih => exact .cont hp (h _ _ hw) ih

theorem Spec.Calls.mem {P : Addr → Option HAddr} {s : State} {a path} (hc : Calls P s a path) :
    ∀ c ∈ path, ∃ q, Calls P s c q := by
  induction hc with
  | stop hp =>
    intro c hm
    rw [List.mem_singleton] at hm
    subst hm
    exact ⟨_, .stop hp⟩
  | cont hp hw hq ih =>
    intro c hm
    rcases List.mem_cons.1 hm with rfl | hm
    · exact ⟨_, .cont hp hw hq⟩
    · exact ih c hm

end Gotcha
