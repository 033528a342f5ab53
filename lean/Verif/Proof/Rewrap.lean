import Verif.Proof.Skip
/-
Passing a table to gotcha_wrap again: where the new bindings end up and what their handles say.
-/
namespace Gotcha
open HTable
open Spec (exportsAt firstDef insertBefore Frame Abs)

theorem bind_get {s : State} {b x} (h : s.bind b = .ok x) : s.binds[b]? = some x := by
  unfold State.bind at h
  split at h
  · cases h
  · cases h; assumption

/-- The loop that looks for the position never gets past a binding with the same wrapper. -/
theorem findPos_upto {s : State} {p : Int} {w : Addr} {q : BId} {B : List BId} (L : List BId) :
    ∀ {fuel cur o}, Seg (bnx s.binds) (some cur) (L ++ q :: B) none →
      bwr s.binds q = some w → findPos s p w fuel cur = .ok o →
      o = none ∨ ∃ pos ∈ L ++ [q], o = some pos := by
  induction L with
  | nil =>
    intro fuel cur o hs hw e
    obtain ⟨hc, n, hn, hs2⟩ := hs
    cases hc
    cases fuel with
    | zero => cases e
    | succ fuel =>
      obtain ⟨x, hx, e⟩ := ebind e
      have hx' := bind_get hx
      have hxw : x.user.wrapper = w := by simpa [bwr, btu, hx'] using hw
      cases hxn : x.next with
      | none => rw [hxn] at e; cases e; exact Or.inr ⟨q, by simp, rfl⟩
      | some m =>
        rw [hxn] at e
        obtain ⟨np, -, e⟩ := ebind e
        split at e
        · cases e; exact Or.inr ⟨q, by simp, rfl⟩
        · cases e; exact Or.inl rfl
  | cons c L ih =>
    intro fuel cur o hs hw e
    obtain ⟨hc, n, hn, hs2⟩ := hs
    cases hc
    cases fuel with
    | zero => cases e
    | succ fuel =>
      obtain ⟨x, hx, e⟩ := ebind e
      have hx' := bind_get hx
      have hxn : x.next = n := by simpa [bnx, hx'] using hn
      cases hxn' : x.next with
      | none => rw [hxn'] at e; cases e; exact Or.inr ⟨c, by simp, rfl⟩
      | some m =>
        rw [hxn'] at e
        obtain ⟨np, -, e⟩ := ebind e
        split at e
        · cases e; exact Or.inr ⟨c, by simp, rfl⟩
        · split at e
          · cases e; exact Or.inl rfl
          · rw [← hxn, hxn'] at hs2
            rcases ih hs2 hw e with h | ⟨pos, h1, h2⟩
            · exact Or.inl h
            · exact Or.inr ⟨pos, by simp at h1 ⊢; tauto, h2⟩

/-- What `setInternalBindingAddressPointer` does to the wrappee fields. -/
theorem setInternal_wp {s s' : State} {h : HAddr} {b : BId} {v} (hb : s.handles h = some b)
    (e : s.setInternal h v = .ok s') :
    ∃ binds', s' = { s with binds := binds' } ∧ b < s.binds.length ∧
      binds' = s.binds.modify b (fun x => { x with wrappee := v }) := by
  unfold State.setInternal at e
  rw [hb] at e
  dsimp only at e
  split at e
  · rename_i hlt
    cases e
    exact ⟨_, rfl, hlt, rfl⟩
  · cases e

/-- The binding `b` of `u` waits to be put on the chain of its function, on which there is already a
binding `q` of `u`, whose handle variable now points to `b`. -/
structure Again (s : State) (ch : Name → List BId) (b : BId) (u : UBinding) (L : List BId) (q : BId) :
    Prop where
  split : ∃ B, ch u.name = L ++ q :: B
  user : ∃ t, btu s.binds q = some (t, u)
  handle : s.handles u.handle = some b
  fresh : bwp s.binds b = some none
  own : ∀ c ∈ L, ∃ t v, btu s.binds c = some (t, v) ∧ s.handles v.handle = some c
  next : ∀ c ∈ L, ∃ d ∈ L ++ [q], bwp s.binds c = some (bwr s.binds d)

/-- The bindings of `L ++ [q]` and `b` form a trap: each continues with one of `L ++ [q]`, except that
the wrappee of `b` may be indeterminate. -/
structure Trap (binds : List IBinding) (b : BId) (L : List BId) (q : BId) : Prop where
  next : ∀ c ∈ L, ∃ d ∈ L ++ [q], bwp binds c = some (bwr binds d)
  new : bwp binds b = some none ∨ ∃ d ∈ L ++ [q], bwp binds b = some (bwr binds d)

theorem rwTail_again {s s' : State} {b t u p r ch L q} {pend : BId → Prop}
    (hI : BindInv s.binds s.handles s.tools.store.length ch pend)
    (hF : TabMap strhash s.funTab (fun f => (ch f).head?))
    (hbu : btu s.binds b = some (t, u)) (hb : pend b) (ha : Again s ch b u L q)
    (e : rwTail s b u p = .ok (s', r)) :
    Trap s'.binds b L q ∧ btu s'.binds = btu s.binds ∧
      (∀ c, c ≠ b → c ∉ L → bwp s'.binds c = bwp s.binds c) := by
  obtain ⟨⟨B, hsp⟩, ⟨tq, hq⟩, hh, hfr, hown, hnx⟩ := ha
  have hqw : bwr s.binds q = some u.wrapper := by simp [bwr, hq]
  have hbL : ∀ c ∈ L ++ [q], c ≠ b := by
    intro c hc e'
    subst e'
    refine hI.pendc (f := u.name) hb ?_
    rw [hsp]
    simp at hc ⊢; tauto
  have keep : Trap s.binds b L q := ⟨hnx, Or.inl hfr⟩
  unfold rwTail at e
  rw [nameLookup_tab hF] at e
  obtain ⟨hd, Lr, hL⟩ : ∃ hd Lr, L ++ q :: B = hd :: Lr := by
    cases L <;> exact ⟨_, _, rfl⟩
  have hhd : hd ∈ L ++ [q] := by
    cases L with
    | nil => cases hL; simp
    | cons c L => cases hL; simp
  rw [hsp, hL] at e
  obtain ⟨o, ho, e⟩ := ebind e
  cases ho
  simp only [List.head?_cons] at e
  obtain ⟨hp, -, e⟩ := ebind e
  split at e
  · -- at the head
    obtain ⟨s2, h2, e⟩ := ebind e
    cases e
    obtain ⟨xb, hxb, h2⟩ := ebind h2
    obtain ⟨xh, hxh, h2⟩ := ebind h2
    obtain ⟨s3, h3, h2⟩ := ebind h2
    obtain ⟨⟨t1, -⟩, -, h2⟩ := ebind h2
    obtain ⟨t2, -, h2⟩ := ebind h2
    obtain ⟨t3, -, h2⟩ := ebind h2
    cases h2
    have hxb' := bind_get hxb
    have hxu : xb.user = u := by
      have : btu s.binds b = some (xb.tool, xb.user) := btu_some hxb'
      rw [this] at hbu; cases hbu; rfl
    rw [hxu] at h3
    obtain ⟨binds', rfl, hlt, rfl⟩ := setInternal_wp (s := { s with binds := s.binds.modify b _ })
      (by exact hh) h3
    have hlt' : b < s.binds.length := by simpa using hlt
    have hwh : bwr s.binds hd = some xh.user.wrapper := by
      simp [bwr, btu, bind_get hxh]
    refine ⟨⟨?_, Or.inr ⟨hd, hhd, ?_⟩⟩, ?_, ?_⟩
    · intro c hc
      obtain ⟨d, hd1, hd2⟩ := hnx c hc
      refine ⟨d, hd1, ?_⟩
      show bwp (List.modify _ _ _) c = some (bwr (List.modify _ _ _) d)
      rw [bwp_modW (by simpa using hlt'), upd_ne _ _ (hbL c (by simp [hc])), bwp_modN, hd2]
      simp [bwr, btu_modW, btu_modN]
    · show bwp (List.modify _ _ _) b = some (bwr (List.modify _ _ _) hd)
      rw [bwp_modW (by simpa using hlt'), upd_self]
      simp [bwr, btu_modW, btu_modN]
      simpa [bwr] using hwh.symm
    · show btu (List.modify _ _ _) = _
      rw [btu_modW, btu_modN]
    · intro c hc hcL
      show bwp (List.modify _ _ _) c = _
      rw [bwp_modW (by simpa using hlt'), upd_ne _ _ hc, bwp_modN]
  · obtain ⟨o, ho, e⟩ := ebind e
    have hs : Seg (bnx s.binds) (some hd) (L ++ q :: B) none := by
      have := hI.chain u.name
      rw [hsp, hL] at this
      rw [hL]; exact this
    rcases findPos_upto L hs hqw ho with rfl | ⟨pos, hpos, rfl⟩
    · -- already inserted
      cases e
      exact ⟨keep, rfl, fun _ _ _ => rfl⟩
    · -- after `pos`
      obtain ⟨s2, h2, e⟩ := ebind e
      cases e
      obtain ⟨xb, hxb, h2⟩ := ebind h2
      obtain ⟨xp, hxp, h2⟩ := ebind h2
      obtain ⟨s3, h3, h2⟩ := ebind h2
      obtain ⟨s4, h4, h2⟩ := ebind h2
      obtain ⟨xp', -, h2⟩ := ebind h2
      cases h2
      have hxb' := bind_get hxb
      have hxp' := bind_get hxp
      have hxu : xb.user = u := by
        have : btu s.binds b = some (xb.tool, xb.user) := btu_some hxb'
        rw [this] at hbu; cases hbu; rfl
      rw [hxu] at h3 h4
      obtain ⟨binds3, rfl, hlt, rfl⟩ := setInternal_wp hh h3
      by_cases hpq : pos ∈ L
      · -- in front of `q`
        obtain ⟨tv, v, hv1, hv2⟩ := hown pos hpq
        have hxv : xp.user = v := by
          have : btu s.binds pos = some (xp.tool, xp.user) := btu_some hxp'
          rw [this] at hv1; cases hv1; rfl
        rw [hxv] at h4
        obtain ⟨binds4, rfl, hlt4, rfl⟩ := setInternal_wp (s := { s with binds := _ }) (by exact hv2) h4
        have hpb := hbL pos (by simp [hpq])
        have hwp : bwp s.binds pos = some xp.wrappee := by simp [bwp, hxp']
        have hlt4' : pos < s.binds.length := by simpa using hlt4
        have key : ∀ c, bwp (((((s.binds.modify b (fun x => { x with wrappee := xp.wrappee })).modify
            pos (fun x => { x with wrappee := some u.wrapper })).modify b
            (fun x => { x with next := xp'.next })).modify pos
            (fun x => { x with next := some b }))) c =
            if c = pos then some (some u.wrapper) else if c = b then some xp.wrappee
            else bwp s.binds c := by
          intro c
          rw [bwp_modN, bwp_modN, bwp_modW (by simpa using hlt4), bwp_modW hlt]
          simp only [upd]
        have kt : btu (((((s.binds.modify b (fun x => { x with wrappee := xp.wrappee })).modify
            pos (fun x => { x with wrappee := some u.wrapper })).modify b
            (fun x => { x with next := xp'.next })).modify pos
            (fun x => { x with next := some b }))) = btu s.binds := by
          rw [btu_modN, btu_modN, btu_modW, btu_modW]
        refine ⟨⟨?_, Or.inr ?_⟩, kt, ?_⟩
        · intro c hc
          by_cases hcp : c = pos
          · refine ⟨q, by simp, ?_⟩
            rw [key, if_pos hcp]
            simp only [bwr, kt, hq, Option.map_some]
          · obtain ⟨d, hd1, hd2⟩ := hnx c hc
            refine ⟨d, hd1, ?_⟩
            rw [key, if_neg hcp, if_neg (hbL c (by simp [hc])), hd2]
            simp only [bwr, kt]
        · obtain ⟨d, hd1, hd2⟩ := hnx pos hpq
          refine ⟨d, hd1, ?_⟩
          rw [key, if_neg (Ne.symm hpb), if_pos rfl, ← hwp, hd2]
          simp only [bwr, kt]
        · intro c hc hcL
          rw [key, if_neg (show c ≠ pos from fun e' => hcL (e' ▸ hpq)), if_neg hc]
      · -- right after `q`
        have hpq' : pos = q := by
          simp at hpos
          tauto
        subst hpq'
        have hxv : xp.user = u := by
          have : btu s.binds pos = some (xp.tool, xp.user) := btu_some hxp'
          rw [this] at hq; cases hq; rfl
        rw [hxv] at h4
        obtain ⟨binds4, rfl, hlt4, rfl⟩ := setInternal_wp (s := { s with binds := _ }) (by exact hh) h4
        have key : ∀ c, bwp (((((s.binds.modify b (fun x => { x with wrappee := xp.wrappee })).modify
            b (fun x => { x with wrappee := some u.wrapper })).modify b
            (fun x => { x with next := xp'.next })).modify pos
            (fun x => { x with next := some b }))) c =
            if c = b then some (some u.wrapper) else bwp s.binds c := by
          intro c
          rw [bwp_modN, bwp_modN, bwp_modW (by simpa using hlt4), bwp_modW hlt]
          simp only [upd]
          split <;> rfl
        have kt : btu (((((s.binds.modify b (fun x => { x with wrappee := xp.wrappee })).modify
            b (fun x => { x with wrappee := some u.wrapper })).modify b
            (fun x => { x with next := xp'.next })).modify pos
            (fun x => { x with next := some b }))) = btu s.binds := by
          rw [btu_modN, btu_modN, btu_modW, btu_modW]
        refine ⟨⟨?_, Or.inr ⟨pos, by simp, ?_⟩⟩, kt, ?_⟩
        · intro c hc
          obtain ⟨d, hd1, hd2⟩ := hnx c hc
          refine ⟨d, hd1, ?_⟩
          rw [key, if_neg (hbL c (by simp [hc])), hd2]
          simp only [bwr, kt]
        · rw [key, if_pos rfl]
          simp only [bwr, kt, hq, Option.map_some]
        · intro c hc hcL
          rw [key, if_neg hc]

theorem mem_upto {α : Type} {L B : List α} {q c : α} (h : c ∈ L ++ [q]) : c ∈ L ++ q :: B := by
  simp at h ⊢; tauto

/-- One iteration of the loop of `gotcha_wrap`, for a binding that is already there. -/
theorem processOne_again {C : Ctx} {om : State → Except Fault State} {n : Nat} {s s' : State}
    {G : Gh} {A : Abs} {b t u L q nb nb' nf nf'} (h : Inv C s G A) (hb : G.pend b)
    (hbu : btu s.binds b = some (t, u)) (hom : u.name = nm "main" → om s = .ok s)
    (ha : Again s G.ch b u L q) (e : processOne C.env om n b s nb nf = .ok (s', nb', nf')) :
    Trap s'.binds b L q ∧ btu s'.binds = btu s.binds ∧ s'.handles = s.handles ∧
      (∀ c, c ≠ b → c ∉ L → bwp s'.binds c = bwp s.binds c) := by
  unfold processOne at e
  obtain ⟨xb, -, e⟩ := ebind e
  obtain ⟨⟨s1, r⟩, h1, e⟩ := ebind e
  rw [rewriteOrders_eq om hbu (h.bind.okt hbu)] at h1
  have h1' : rwTail s b u (prB s.binds (Tools.np s.tools.store) b) = .ok (s1, r) := by
    by_cases hn : u.name = nm "main"
    · rw [if_pos hn, hom hn] at h1; exact h1
    · rw [if_neg hn] at h1; exact h1
  obtain ⟨g1, g2, g3⟩ := rwTail_again h.bind h.fn hbu hb ha h1'
  obtain ⟨binds2, ft2, r2, ch2, he2, hP⟩ := rwTail_spec (hon := False) (P := C.P)
    (real := G.real) (prB s.binds (Tools.np s.tools.store) b) h.bind h.fn hbu hb (fun x => x.elim)
  rw [h1'] at he2
  cases he2
  have hl : ¬ r.lookup = true := by
    rw [hP.look]
    obtain ⟨B, hB⟩ := ha.split
    rw [hB]; simp
  dsimp only at e
  rw [if_neg hl] at e
  obtain ⟨⟨s3, nf3⟩, h3, e⟩ := ebind e
  cases h3
  split at e
  · obtain ⟨nb3, -, e⟩ := ebind e
    cases e
    exact ⟨g1, g2, rfl, g3⟩
  · obtain ⟨nb3, -, e⟩ := ebind e
    cases e
    exact ⟨g1, g2, rfl, g3⟩

theorem processBindings_again {C : Ctx} (w : World C.env C.U) (hsl : ¬ C.sl) {om oa Q}
    (hom : OnMain C om oa (fun x => x = true) Q) {n : Nat} (hn : 0 < n) {t tool p}
    {D : Name → Prop} (LQ : UBinding → List BId × BId) (us : List UBinding) :
    ∀ {s : State} {G : Gh} {A : Abs} {bs : List BId} {nb m} {nf : Nat} {s' nb' nf'},
      Inv C s G A → bs.Nodup →
      bs.map (btu s.binds) = us.map (fun u => some (t, u)) → (∀ b ∈ bs, G.pend b) →
      (Tools.np s.tools.store)[t]? = some (tool, p) → NbOk nb m → NbEnt s G p m →
      (G.dirty = fun f => D f ∨ (m f).isSome = true) → (us.map UBinding.name).Nodup →
      (∀ u ∈ us, u.name = nm "main" → s.mainWrapped = true) →
      (∀ x ∈ bs.zip us, Again s G.ch x.1 x.2 (LQ x.2).1 (LQ x.2).2) →
      processBindings C.env om n bs s nb nf = .ok (s', nb', nf') →
      (∀ x ∈ bs.zip us, Trap s'.binds x.1 (LQ x.2).1 (LQ x.2).2) ∧
      btu s'.binds = btu s.binds ∧ s'.handles = s.handles ∧ s'.mem = s.mem ∧
      (∀ c, c ∉ bs → (∀ u ∈ us, c ∉ (LQ u).1) → bwp s'.binds c = bwp s.binds c) ∧
      ∃ G' m', Inv C s' G' (Abs.pushAll oa tool us A).1 ∧ Keep C s G s' G' ∧ NbOk nb' m' ∧
        NbEnt s' G' p m' ∧ ∀ f b, m' f = some b → m f = some b ∨ ∃ u ∈ us, u.name = f ∧
          btu s.binds b = some (t, u) := by
  induction us with
  | nil =>
    intro s G A bs nb m nf s' nb' nf' h hnd hbs hpend hpp hnb hent hD hnn hm ha e
    have : bs = [] := by simpa using hbs
    subst this
    cases e
    refine ⟨by simp, rfl, rfl, rfl, fun _ _ _ => rfl, G, m, h, Keep.refl .., hnb, hent, ?_⟩
    intro f b hb
    exact Or.inl hb
  | cons u us ih =>
    intro s G A bs nb m nf s' nb' nf' h hnd hbs hpend hpp hnb hent hD hnn hm ha e
    cases bs with
    | nil => simp at hbs
    | cons b bs =>
    simp only [List.map_cons, List.cons.injEq] at hbs
    rw [List.nodup_cons] at hnd
    rw [List.map_cons, List.nodup_cons] at hnn
    obtain ⟨s1, G1, nb1, m1, nf1, e1, e2, e3, e4, e5, e6, e7, e8, e9, e10, e11, e12, e13, e14, e15, e16⟩ :=
      processOne_spec w hom hn (nf := nf) h (hpend b (by simp)) hbs.1 hpp hnb hent hD
        (fun hs => absurd hs hsl)
    have hq : u.name ≠ nm "main" ∨ s.mainWrapped = true := by
      by_cases hn' : u.name = nm "main"
      · exact Or.inr (hm u (by simp) hn')
      · exact Or.inl hn'
    have homs : u.name = nm "main" → om s = .ok s := by
      intro hn'
      obtain ⟨s0, G0, h0, -, -, -, -, -, h1, -⟩ := hom.step h (fun hs => absurd hs hsl)
      rw [h0, (h1 (hm u (by simp) hn')).1]
    have ha0 := ha (b, u) (by simp)
    obtain ⟨g1, g2, g3, g4⟩ := processOne_again h (hpend b (by simp)) hbs.1 homs ha0 e1
    obtain ⟨q1, -⟩ := e10 hq
    obtain ⟨q2, -⟩ := e16 hq
    have hpp1 : (Tools.np s1.tools.store)[t]? = some (tool, p) := by
      obtain ⟨z, hz⟩ := e3.np
      rw [← hz, List.getElem?_append_left (List.getElem?_eq_some_iff.1 hpp).1, hpp]
    have hpend1 : ∀ c ∈ bs, G1.pend c := by
      intro c hc
      rw [e4]
      exact ⟨hpend c (List.mem_cons_of_mem _ hc), fun e => hnd.1 (by rw [← e]; exact hc)⟩
    have hLch : ∀ x ∈ (b :: bs).zip (u :: us), ∀ c ∈ (LQ x.2).1 ++ [(LQ x.2).2], c ∈ G.ch x.2.name := by
      intro x hx c hc
      obtain ⟨B, hB⟩ := (ha x hx).split
      rw [hB]
      exact mem_upto hc
    have hdis : ∀ {f g c}, c ∈ G.ch f → c ∈ G.ch g → f = g := by
      intro f g c h1 h2
      obtain ⟨t1, u1, e1, rfl⟩ := h.bind.named h1
      obtain ⟨t2, u2, e2, rfl⟩ := h.bind.named h2
      rw [e1] at e2; cases e2; rfl
    have hL0 := hLch (b, u) (by simp)
    have hmem : ∀ {v}, v ∈ us → ∃ c, (c, v) ∈ bs.zip us := by
      intro v hv
      have hlen : bs.length = us.length := by
        have := congrArg List.length hbs.2
        simpa using this
      obtain ⟨i, hi, rfl⟩ := List.getElem_of_mem hv
      refine ⟨bs[i]'(by omega), ?_⟩
      rw [List.mem_iff_getElem]
      exact ⟨i, by simp; omega, by simp⟩
    have ha1 : ∀ x ∈ bs.zip us, Again s1 G1.ch x.1 x.2 (LQ x.2).1 (LQ x.2).2 := by
      intro x hx
      have hx' : x ∈ (b :: bs).zip (u :: us) := by simp [hx]
      obtain ⟨a1, a2, a3, a4, a5, a6⟩ := ha x hx'
      have hxu : x.2 ∈ us := (List.of_mem_zip (show (x.1, x.2) ∈ _ from hx)).2
      have hxb : x.1 ∈ bs := (List.of_mem_zip (show (x.1, x.2) ∈ _ from hx)).1
      have hne : x.2.name ≠ u.name := fun e' => hnn.1 (e' ▸ List.mem_map_of_mem hxu)
      have hnot : ∀ c ∈ (LQ x.2).1, c ≠ b ∧ c ∉ (LQ u).1 := by
        intro c hc
        have hc1 := hLch x hx' c (by simp [hc])
        refine ⟨fun e' => h.bind.pendc (hpend b (by simp)) (e' ▸ hc1), fun hc2 => ?_⟩
        exact hne (hdis hc1 (hL0 c (by simp [hc2])))
      have hbb : x.1 ≠ b ∧ x.1 ∉ (LQ u).1 :=
        ⟨fun e' => hnd.1 (e' ▸ hxb),
          fun hc => h.bind.pendc (hpend x.1 (by simp [hxb])) (hL0 x.1 (by simp [hc]))⟩
      refine ⟨by rw [q2 _ hne]; exact a1, by rw [g2]; exact a2, by rw [g3]; exact a3, ?_, ?_, ?_⟩
      · rw [g4 _ hbb.1 hbb.2]; exact a4
      · rw [g2, g3]; exact a5
      · intro c hc
        obtain ⟨d, d1, d2⟩ := a6 c hc
        refine ⟨d, d1, ?_⟩
        rw [g4 _ (hnot c hc).1 (hnot c hc).2, d2]
        simp only [bwr, g2]
    rw [processBindings_cons, e1] at e
    obtain ⟨f1, f2, f3, f4, f5, G', m', f6, f7, f8, f9, f10⟩ := ih e2 hnd.2 (by rw [g2]; exact hbs.2) hpend1
      hpp1 e5 e6 e7 hnn.2 (fun v hv hn' => by rw [q1.mainW]; exact hm v (by simp [hv]) hn') ha1 e
    have hpr : A.prioOf tool = p := prioOf_eq h hpp
    have keep : ∀ c, c ∉ bs → (∀ v ∈ us, c ∉ (LQ v).1) → bwp s'.binds c = bwp s1.binds c := f5
    have hbnot : ∀ v ∈ us, b ∉ (LQ v).1 := by
      intro v hv hc
      obtain ⟨c, hcv⟩ := hmem hv
      exact h.bind.pendc (hpend b (by simp)) (hLch (c, v) (by simp [hcv]) b (by simp [hc]))
    have hcnot : ∀ c ∈ (LQ u).1, c ∉ bs ∧ ∀ v ∈ us, c ∉ (LQ v).1 := by
      intro c hc
      have hc1 := hL0 c (by simp [hc])
      refine ⟨fun hcb => h.bind.pendc (hpend c (by simp [hcb])) hc1, fun v hv hc2 => ?_⟩
      obtain ⟨c', hcv⟩ := hmem hv
      have := hdis hc1 (hLch (c', v) (by simp [hcv]) c (by simp [hc2]))
      exact hnn.1 (by rw [show u.name = v.name from this]; exact List.mem_map_of_mem hv)
    refine ⟨?_, f2.trans g2, f3.trans g3, f4.trans q1.mem, ?_, G', m', ?_, e3.trans f7, f8, f9, ?_⟩
    · intro x hx
      rw [List.zip_cons_cons, List.mem_cons] at hx
      rcases hx with rfl | hx
      · refine ⟨?_, ?_⟩
        · intro c hc
          obtain ⟨d, d1, d2⟩ := g1.next c hc
          refine ⟨d, d1, ?_⟩
          rw [keep c (hcnot c hc).1 (hcnot c hc).2, d2]
          simp only [bwr, f2]
        · rw [keep b hnd.1 hbnot]
          rcases g1.new with g | ⟨d, d1, d2⟩
          · exact Or.inl g
          · refine Or.inr ⟨d, d1, ?_⟩
            rw [d2]
            simp only [bwr, f2]
      · exact f1 x hx
    · intro c hc hcl
      simp only [List.mem_cons, not_or] at hc
      rw [keep c hc.2 (fun v hv => hcl v (by simp [hv])), g4 c hc.1 (hcl u (by simp))]
    · rw [Abs.pushAll, hpr]; exact f6
    · intro f c hc
      rcases f10 f c hc with hc | ⟨v, v1, v2, v3⟩
      · rcases e15 with e15 | e15
        · rw [e15] at hc; exact Or.inl hc
        · rw [e15] at hc
          by_cases hf : f = u.name
          · rw [hf, upd_self] at hc
            cases hc
            exact Or.inr ⟨u, by simp, hf.symm, hbs.1⟩
          · rw [upd_ne _ _ hf] at hc; exact Or.inl hc
      · exact Or.inr ⟨v, by simp [v1], v2, by rw [← g2]; exact v3⟩

/-- The context without the assumptions on clients. -/
abbrev Ctx.weak (C : Ctx) : Ctx := { C with hon := False, sl := False }

theorem Inv.weak {C : Ctx} {s G A} (h : Inv C s G A) : Inv C.weak s G A where
  tools := h.tools
  bind := h.bind
  fn := h.fn
  nf := h.nf
  nfm := h.nfm
  lib := h.lib
  wr := h.wr
  objs := h.objs
  nd := h.nd
  placed := h.placed
  vd := h.vd
  hon := fun x => x.elim
  nfr := fun x => x.elim
  fresh := fun x => x.elim
  onch := fun x => x.elim
  slots := fun x => x.elim
  prio := h.prio
  stack := fun x => x.elim
  real := fun x => x.elim
  libs := h.libs
  vdso := h.vdso
  mainW := h.mainW
  init := h.init
  init' := h.init'

theorem wchain_next {wr wp} {L B : List BId} {q : BId} {r} (h : WChain wr wp (L ++ q :: B) r) :
    ∀ c ∈ L, ∃ d ∈ L ++ [q], wp c = some (wr d) := by
  induction L with
  | nil => intro c hc; cases hc
  | cons x L ih =>
    intro c hc
    rcases List.mem_cons.1 hc with rfl | hc
    · have h1 := h.1
      cases L with
      | nil => exact ⟨q, by simp, h1⟩
      | cons y L => exact ⟨y, by simp, h1⟩
    · obtain ⟨d, d1, d2⟩ := ih h.2 c hc
      exact ⟨d, by rw [List.cons_append]; exact List.mem_cons_of_mem _ d1, d2⟩

/-- The addresses `T` lead nowhere: they are wrappers, and each continues inside `T` or with an
indeterminate pointer. -/
def Nowhere (P : Addr → Option HAddr) (s : State) (T : Addr → Prop) : Prop :=
  ∀ a, T a → ∃ h, P a = some h ∧
    (s.getWrappee h = .error .uninit ∨ ∃ a', T a' ∧ s.getWrappee h = .ok a')

theorem wrapCore_again {C : Ctx} (w : World C.env C.U) {s : State} {G : Gh} {A : Abs}
    (h : Inv C s G A) (hon : C.hon) (hp : ∀ b, ¬ G.pend b) (tbl : List UBinding)
    (tool : Option Name) (hnn : (tbl.map UBinding.name).Nodup)
    (hreg : ∀ u ∈ tbl, ∃ b t, btu s.binds b = some (t, u))
    (hm : ∀ u ∈ tbl, u.name = nm "main" → s.mainWrapped = true) :
    ∃ s' c, wrapCore C.env (onMainReal C.env) tbl tool s = .ok (s', c) ∧ s'.linkMap = s.linkMap ∧
      ∀ u ∈ tbl, ∃ T : Addr → Prop, T u.wrapper ∧
        (∀ hd, (G.ch u.name).head? = some hd → ∃ a, T a ∧ bwr s.binds hd = some a) ∧
        Nowhere C.P s' T ∧
        ∀ a, s'.mem a = s.mem a ∨ ∃ l ∈ s.linkMap, ∃ q ∈ rlOf l, a = l.addr + q.1 ∧
          ∃ v ∈ tbl, v.name = q.2 ∧ s'.mem a = v.wrapper := by
  have hom := onMainReal_spec (C := C.weak) w (fun x => x.elim)
  have hH := h.hon hon
  obtain ⟨s', G', c, e, -, -, hK, -⟩ := wrapCore_spec (C := C.weak) w hom h.weak tbl tool
    (fun x => x.elim) (fun x => x.elim) (fun x => x.elim)
  refine ⟨s', c, e, hK.linkMap, ?_⟩
  intro u0 hu0
  have hpos : 0 < tbl.length := List.length_pos_of_mem hu0
  -- the table
  have hinj : ∀ u ∈ tbl, ∀ v ∈ tbl, u.handle = v.handle → u = v := by
    intro u hu v hv e'
    obtain ⟨b1, t1, h1⟩ := hreg u hu
    obtain ⟨b2, t2, h2⟩ := hreg v hv
    have g1 := hH.own h1
    have g2 := hH.own h2
    rw [e', g2] at g1
    cases g1
    rw [h1] at h2; cases h2; rfl
  have hndh : (tbl.map UBinding.handle).Nodup := by
    refine (List.nodup_map_iff_inj_on hnn.of_map).2 ?_
    intro u hu v hv e'
    exact hinj u hu v hv e'
  -- the setup
  generalize htn : tool.getD (nm "[UNSPECIFIED]") = tn at *
  obtain ⟨ts, tid, p, H, hgc, hnp, hadd, hI, hK1⟩ := setup_inv (C := C.weak) h.weak tn tbl
    (fun x => x.elim) (fun x => x.elim)
  obtain ⟨H0, hf, hH0⟩ := fold_handles tbl s
  obtain ⟨H', ha', hH1, -, hH3⟩ := addBindings_eq tid tbl
    { s with handles := H0, tools := ts, gen := s.gen + 1 }
  have hHH : H' = H := by
    rw [hf] at hadd
    have := hadd.symm.trans ha'
    exact (congrArg State.handles this).symm
  subst hHH
  have hHout : ∀ hd, hd ∉ tbl.map UBinding.handle → H' hd = s.handles hd := by
    intro hd hn
    rw [hH1 hd hn]; exact hH0 hd hn
  set s1 : State := { s with
          tools := ts
          gen := s.gen + 1
          binds := s.binds ++ tbl.map (mkB tid)
          handles := H' } with hs1
  have hbs : (List.range' s.binds.length tbl.length).map (btu s1.binds) =
      tbl.map (fun u => some (tid, u)) := by
    apply List.ext_getElem?
    intro i
    simp only [List.getElem?_map]
    by_cases hi : i < tbl.length
    · rw [List.getElem?_range' (by simpa using hi), List.getElem?_eq_getElem hi]
      simp only [Option.map_some, Nat.one_mul]
      congr 1
      show btu (s.binds ++ tbl.map (mkB tid)) _ = _
      simp [btu, List.getElem?_append_right, List.getElem?_eq_getElem hi, mkB]
    · rw [List.getElem?_eq_none (by simp; omega), List.getElem?_eq_none (by omega)]
      rfl
  have hold : ∀ {b y}, btu s.binds b = some y → btu s1.binds b = some y :=
    fun hy => by
      show btu (s.binds ++ tbl.map (mkB tid)) _ = _
      rw [btu_append_old (btu_lt hy)]; exact hy
  -- where the old bindings are
  have hpos' : ∀ u : UBinding, ∃ x : List BId × BId, u ∈ tbl →
      (∃ B, G.ch u.name = x.1 ++ x.2 :: B) ∧ ∃ t, btu s.binds x.2 = some (t, u) := by
    intro u
    by_cases hu : u ∈ tbl
    · obtain ⟨q, t, hq⟩ := hreg u hu
      rcases h.onch hon q (btu_lt hq) with hc | ⟨f, hc⟩
      · exact absurd hc (hp q)
      · obtain ⟨t', u', hq', rfl⟩ := h.bind.named hc
        rw [hq] at hq'
        cases hq'
        obtain ⟨L, B, hLB⟩ := List.append_of_mem hc
        exact ⟨(L, q), fun _ => ⟨⟨B, hLB⟩, t, hq⟩⟩
    · exact ⟨([], 0), fun hu' => absurd hu' hu⟩
  choose LQ hLQ using hpos'
  have hLown : ∀ u ∈ tbl, ∀ c ∈ (LQ u).1, ∃ t v, btu s.binds c = some (t, v) ∧ v.name = u.name ∧
      v.handle ∉ tbl.map UBinding.handle := by
    intro u hu c hc
    obtain ⟨⟨B, hB⟩, tq, hq⟩ := hLQ u hu
    obtain ⟨t, v, hv, hvn⟩ := h.bind.named (f := u.name) (b := c) (by rw [hB]; simp [hc])
    refine ⟨t, v, hv, hvn, fun hin => ?_⟩
    obtain ⟨v', hv', e'⟩ := List.mem_map.1 hin
    obtain ⟨b', t', hb'⟩ := hreg v' hv'
    have g1 := hH.own hv
    have g2 := hH.own hb'
    rw [e', g1] at g2
    cases g2
    rw [hv] at hb'
    cases hb'
    have hvu : v = u := List.inj_on_of_nodup_map hnn hv' hu hvn
    subst hvu
    have g3 := hH.own hq
    rw [g1] at g3
    have hcq : c = (LQ v).2 := Option.some.inj g3
    have hnd := (h.bind.chain v.name).nodup
    rw [hB, List.nodup_append] at hnd
    exact hnd.2.2 c hc _ (by simp) hcq
  have hagain : ∀ x ∈ (List.range' s.binds.length tbl.length).zip tbl,
      Again s1 G.ch x.1 x.2 (LQ x.2).1 (LQ x.2).2 := by
    rintro ⟨b, u⟩ hx
    obtain ⟨i, hi, hxi⟩ := List.getElem_of_mem hx
    simp at hi
    simp at hxi
    obtain ⟨rfl, rfl⟩ := hxi
    have hu : tbl[i] ∈ tbl := List.getElem_mem _
    obtain ⟨hB, tq, hq⟩ := hLQ _ hu
    have hnext := wchain_next (q := (LQ tbl[i]).2) (L := (LQ tbl[i]).1) (B := hB.choose)
      (r := G.real tbl[i].name) (by rw [← hB.choose_spec]; exact hH.wch _)
    have hlt : ∀ c ∈ (LQ tbl[i]).1 ++ [(LQ tbl[i]).2], c < s.binds.length := by
      intro c hc
      obtain ⟨t, v, hv, -⟩ := h.bind.named (f := tbl[i].name) (b := c)
        (by obtain ⟨B, hB⟩ := hB; rw [hB]; exact mem_upto hc)
      exact btu_lt hv
    refine ⟨hB, ⟨tq, hold hq⟩, hH3 hndh i _ (List.getElem?_eq_getElem hi), ?_, ?_, ?_⟩
    · show bwp (s.binds ++ tbl.map (mkB tid)) _ = _
      simp [bwp, List.getElem?_append_right, List.getElem?_eq_getElem hi, mkB]
    · intro c hc
      obtain ⟨t, v, hv, -, hvn⟩ := hLown _ hu c hc
      exact ⟨t, v, hold hv, by rw [show s1.handles = H' from rfl, hHout _ hvn]; exact hH.own hv⟩
    · intro c hc
      obtain ⟨d, d1, d2⟩ := hnext c hc
      refine ⟨d, d1, ?_⟩
      show bwp (s.binds ++ tbl.map (mkB tid)) _ = some (bwr (s.binds ++ tbl.map (mkB tid)) _)
      rw [bwp_append_old (hlt c (by simp [hc])), d2]
      simp only [bwr, btu_append_old (hlt d d1)]
  -- the run
  unfold wrapCore at e
  rw [htn, hf] at e
  obtain ⟨⟨ts', tid'⟩, hgc', e⟩ := ebind e
  have hgc2 : (ts', tid') = (ts, tid) := Except.ok.inj (hgc'.symm.trans hgc)
  cases hgc2
  rw [hf] at hadd
  obtain ⟨⟨s2, nb2, nf2⟩, h2, e⟩ := ebind e
  have h2' : processBindings C.env (onMainReal C.env) tbl.length
      (List.range' s.binds.length tbl.length) s1 none 0 = .ok (s2, nb2, nf2) := by
    dsimp only at h2
    rw [hadd] at h2
    exact h2
  obtain ⟨f1, f2, f3, f4, f5, G2, m2, f6, f7, f8, f9, f10⟩ := processBindings_again (C := C.weak) w id
    hom hpos (t := tid) (tool := tn) (p := p) (D := G.dirty) (m := fun _ => none) LQ tbl hI
    List.nodup_range' hbs (fun b hb => Or.inr hb) hnp (Or.inl ⟨rfl, fun _ => rfl⟩)
    (by intro f b e; cases e) (by funext f; simp) hnn
    (fun v hv hn' => by show s.mainWrapped = true; exact hm v hv hn') hagain h2'
  -- the pass
  obtain ⟨hb3, hh3, hmem3⟩ : s'.binds = s2.binds ∧ s'.handles = s2.handles ∧
      ∀ a, s'.mem a = s.mem a ∨ ∃ l ∈ s.linkMap, ∃ q ∈ rlOf l, a = l.addr + q.1 ∧
          ∃ v ∈ tbl, v.name = q.2 ∧ s'.mem a = v.wrapper := by
    have hlm : s2.linkMap = s.linkMap := f7.linkMap
    have hme : s2.mem = s.mem := f4
    cases nb2 with
    | none =>
      obtain ⟨s3, h3, e⟩ := ebind e
      cases h3
      cases e
      exact ⟨rfl, rfl, fun a => Or.inl (by rw [hme])⟩
    | some tb =>
      obtain ⟨s3, h3, e⟩ := ebind e
      cases e
      rcases f8 with ⟨hc, -⟩ | ⟨tb', hc, ht⟩
      · cases hc
      · cases hc
        obtain ⟨tl, libs', lm', wr', mem', hL, hW, hwr, hrs, hmk, hmem, he⟩ :=
          updateLibs_spec w ht s2.linkMap f6.nd f6.lib f6.wr f6.objs f6.placed
            (fun f b hb => by
              obtain ⟨t, u, e, -⟩ := f6.bind.named (f9 f b hb).1
              exact btu_lt e) (fun l hl => hl)
        have h3' : updateLibs C.env tb s2.linkMap s2 = .ok s' := h3
        rw [he] at h3'
        cases h3'
        refine ⟨rfl, rfl, ?_⟩
        intro a
        have hmem' : mem' = passMem (wOf s2.binds m2) (procList s2.filter s2.gen
          (recAt s2.libs G2.lm) s2.linkMap) s2.mem := hmem
        rcases passMem_or (wOf s2.binds m2) (procList s2.filter s2.gen (recAt s2.libs G2.lm)
          s2.linkMap) s2.mem a with e | ⟨l', hl', q, hq, e, hwq⟩
        · left
          show mem' a = _
          rw [hmem', e, hme]
        · right
          rw [← hmem'] at hwq
          obtain ⟨X, Y, hXY, -⟩ := procList_mem hl'
          refine ⟨l', by rw [← hlm, hXY]; simp, q, hq, e, ?_⟩
          cases hmq : m2 q.2 with
          | none => simp only [wOf, hmq, Option.bind_none] at hwq; cases hwq
          | some b =>
            rcases f10 _ _ hmq with hc | ⟨v, v1, v2, v3⟩
            · cases hc
            · refine ⟨v, v1, v2, ?_⟩
              simp only [wOf, hmq, Option.bind_some, wrapperOf_eq, bwr, f2, v3, Option.map_some]
                at hwq
              exact (Option.some.inj hwq).symm
  -- the trap
  obtain ⟨⟨B, hB⟩, tq, hq⟩ := hLQ u0 hu0
  refine ⟨fun a => ∃ d ∈ (LQ u0).1 ++ [(LQ u0).2], bwr s.binds d = some a,
    ⟨(LQ u0).2, by simp, by simp [bwr, hq]⟩, ?_, ?_, hmem3⟩
  · intro hd hhd
    have hmem : hd ∈ (LQ u0).1 ++ [(LQ u0).2] := by
      rw [hB] at hhd
      generalize (LQ u0).1 = L at *
      cases L with
      | nil => cases hhd; simp
      | cons x L => cases hhd; simp
    obtain ⟨t, v, hv, -⟩ := h.bind.named (f := u0.name) (b := hd) (by rw [hB]; exact mem_upto hmem)
    exact ⟨v.wrapper, ⟨hd, hmem, by simp [bwr, hv]⟩, by simp [bwr, hv]⟩
  · obtain ⟨i, hi, hui⟩ := List.getElem_of_mem hu0
    have hzip : (s.binds.length + i, u0) ∈ (List.range' s.binds.length tbl.length).zip tbl := by
      rw [List.mem_iff_getElem]
      exact ⟨i, by simp; omega, by simp [hui]⟩
    have htrap := f1 _ hzip
    have hbwr : ∀ d ∈ (LQ u0).1 ++ [(LQ u0).2], ∃ a, bwr s.binds d = some a ∧
        bwr s'.binds d = some a := by
      intro d hd
      obtain ⟨t, v, hv, -⟩ := h.bind.named (f := u0.name) (b := d) (by rw [hB]; exact mem_upto hd)
      refine ⟨v.wrapper, by simp [bwr, hv], ?_⟩
      rw [hb3]
      simp only [bwr, f2, hold hv, Option.map_some]
    rintro a ⟨d, hd, hda⟩
    obtain ⟨t, v, hv, hvn⟩ := h.bind.named (f := u0.name) (b := d) (by rw [hB]; exact mem_upto hd)
    have hav : v.wrapper = a := by simpa [bwr, hv] using hda
    refine ⟨v.handle, by rw [← hav]; exact hH.prog hv, ?_⟩
    by_cases hdL : d ∈ (LQ u0).1
    · obtain ⟨t', v', hv', -, hvh⟩ := hLown u0 hu0 d hdL
      rw [hv] at hv'
      cases hv'
      have hhd : s'.handles v.handle = some d := by
        rw [hh3, f3, show s1.handles = H' from rfl, hHout _ hvh]; exact hH.own hv
      obtain ⟨d', d1, d2⟩ := htrap.next d hdL
      obtain ⟨a', g1, g2⟩ := hbwr d' d1
      right
      refine ⟨a', ⟨d', d1, g1⟩, getWrappee_of hhd ?_⟩
      rw [hb3] at g2 ⊢
      rw [d2, g2]
    · have hdq : d = (LQ u0).2 := by
        rcases List.mem_append.1 hd with hd | hd
        · exact absurd hd hdL
        · simpa using hd
      subst hdq
      rw [hq] at hv
      cases hv
      have hhd : s'.handles u0.handle = some (s.binds.length + i) := by
        rw [hh3, f3]
        exact hH3 hndh i u0 (by rw [List.getElem?_eq_getElem hi, hui])
      rcases htrap.new with g | ⟨d', d1, d2⟩
      · left
        exact Spec.getWrappee_uninit hhd (by rw [hb3]; exact g)
      · obtain ⟨a', g1, g2⟩ := hbwr d' d1
        right
        refine ⟨a', ⟨d', d1, g1⟩, getWrappee_of hhd ?_⟩
        rw [hb3] at g2 ⊢
        rw [d2, g2]

/-- A call that gets into such a set never gets to a function that is not a wrapper. -/
theorem Nowhere.calls {P : Addr → Option HAddr} {s : State} {T : Addr → Prop} (h : Nowhere P s T)
    (path : List Addr) : ∀ a, T a → ¬ Spec.Calls P s a path := by
  induction path with
  | nil => intro a _ hc; cases hc
  | cons x path ih =>
    intro a ha hc
    obtain ⟨hd, h1, h2⟩ := h a ha
    obtain ⟨a', path', e, h3, h4⟩ := hc.inv h1
    cases e
    rcases h2 with h2 | ⟨a2, h2, h5⟩
    · rw [h2] at h3; cases h3
    · rw [h5] at h3
      cases h3
      exact ih _ h2 h4

end Gotcha

namespace Gotcha.Spec
open Gotcha

theorem expand_mem {env : Env} {tool : Name} {u : UBinding} (us : List UBinding) : ∀ mw, u ∈ us →
    (tool, u) ∈ expand env tool mw us := by
  induction us with
  | nil => intro mw h; cases h
  | cons v us ih =>
    intro mw h
    rw [expand]
    rcases List.mem_cons.1 h with rfl | h
    · simp
    · simp [ih _ h]

theorem regs_mem {env : Env} {u : UBinding} {tbl tool} (ops : List Op) : ∀ ini mw,
    Op.wrap tbl tool ∈ ops → u ∈ tbl → (toolName tool, u) ∈ regs env ini mw ops := by
  induction ops with
  | nil => intro _ _ h; cases h
  | cons op ops ih =>
    intro ini mw h hu
    rw [regs, List.mem_append]
    rcases List.mem_cons.1 h with rfl | h
    · left
      rw [opRegs, List.mem_append]
      exact Or.inr (expand_mem _ _ hu)
    · exact Or.inr (ih _ _ h hu)

/-- A binding of an earlier table is among the registrations of its function. -/
theorem wrap_registered {env : Env} {u : UBinding} {tbl tool ops} (h : Op.wrap tbl tool ∈ ops)
    (hu : u ∈ tbl) : frame (toolName tool) u ∈ registered env ops u.name := by
  unfold registered framesIn
  rw [List.mem_map]
  exact ⟨(toolName tool, u), by simp [regs_mem ops false false h hu], rfl⟩

end Gotcha.Spec
