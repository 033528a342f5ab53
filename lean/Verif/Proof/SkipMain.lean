import Verif.Proof.Skip
/-
gotcha_wrap of a table that names "main" for the first time, together with other functions.
-/
namespace Gotcha
open HTable
open Spec (exportsAt firstDef insertBefore Frame Abs)

theorem mainW_inv {C : Ctx} {s : State} {G : Gh} {A : Abs} (h : Inv C s G A) :
    Inv C { s with mainWrapped := true } G { A with mainWrapped := true } :=
  { tools := h.tools
    bind := h.bind
    fn := h.fn
    nf := h.nf
    nfm := h.nfm
    lib := h.lib
    wr := h.wr
    objs := h.objs
    nd := h.nd
    placed := h.placed
    vd := h.vd
    hon := h.hon
    nfr := h.nfr
    fresh := fun _ e => by cases e
    onch := h.onch
    slots := h.slots
    prio := h.prio
    stack := h.stack
    real := h.real
    libs := h.libs
    vdso := h.vdso
    mainW := rfl
    init := h.init
    init' := h.init' }

theorem ch_nil_iff {C : Ctx} {s : State} {G : Gh} {A : Abs} (h : Inv C s G A) (f : Name) :
    nameLookup s.funTab f = .ok none ↔ G.ch f = [] := by
  have e := lookup_tab h.fn (k := f) (eq := fun k => k = f) name_eq
  unfold nameLookup
  rw [e]
  cases G.ch f <;> simp

/-- The block for "main": the two inner calls leave every accepted library up to date. -/
theorem onMain_facts {C : Ctx} (w : World C.env C.U) {s : State} {G : Gh} {A : Abs}
    (h : Inv C s G A) (hnh : ¬ C.hon) (hns : ¬ C.sl) (hm : s.mainWrapped = false)
    (hch : G.ch (nm "main") = []) :
    ∃ s' G' A', onMainReal C.env s = .ok s' ∧ Inv C s' G' A' ∧ Keep C s G s' G' ∧
      G'.pend = G.pend ∧ G'.dirty = G.dirty ∧ s'.mainWrapped = true ∧
      (∀ l, Accepted s.filter s.linkMap l → HasRel l → genAt s'.libs G'.lm l = s'.gen) ∧
      (∀ a, s'.mem a = s.mem a ∨ ∃ l ∈ s.linkMap, ∃ q ∈ rlOf l, a = l.addr + q.1 ∧
        (q.2 = nm "__libc_start_main" ∨ q.2 = nm "main")) := by
  have h0 := mainW_inv h
  have hk0 : Keep C s G { s with mainWrapped := true } G :=
    ⟨rfl, fun hy => hy, List.prefix_refl _, fun hy => ⟨_, hy, Int.le_refl _⟩, fun hy => hy, rfl,
      rfl, fun _ => rfl, fun _ => rfl, fun _ => Or.inl rfl, fun _ hy => hy, fun _ => Nat.le_refl _⟩
  obtain ⟨s1, G1, c1, e1, e2, -, e4, e5, e6, -⟩ := wrapCore_spec w (onMain_id C) h0
    (libcMainTable C.env) (some (nm "gotcha")) (fun hh => absurd hh hnh) (fun hs => absurd hs hns)
    (fun hs => absurd hs hns)
  obtain ⟨s1', c1', lm1, e1', -, e7, -, e8, -⟩ := wrap_facts w (onMain_id C) h0 hnh hns
    (libcMainTable C.env) (some (nm "gotcha")) (Or.inr trivial)
  rw [e1] at e1'
  cases e1'
  have hch1 : G1.ch (nm "main") = [] := by
    rw [← ch_nil_iff e2, e8 _ (by
      simp only [libcMainTable, List.map_cons, List.map_nil, List.mem_singleton]; decide +kernel)]
    exact (ch_nil_iff h0 _).2 hch
  obtain ⟨s2, G2, c2, f1, f2, -, f4, f5, f6, -⟩ := wrapCore_spec w (onMain_id C) e2
    (mainTable C.env) (some (nm "gotcha")) (fun hh => absurd hh hnh) (fun hs => absurd hs hns)
    (fun hs => absurd hs hns)
  obtain ⟨s2', c2', lm2, f1', f3, f7, f8, -⟩ := wrap_facts w (onMain_id C) e2 hnh hns
    (mainTable C.env) (some (nm "gotcha")) (Or.inr trivial)
  rw [f1] at f1'
  cases f1'
  have hk := (hk0.trans e4).trans f4
  refine ⟨s2, G2, _, ?_, f2, hk, f5.trans e5, f6.trans e6, ?_, ?_, ?_⟩
  · have e1' : wrapInner C.env (libcMainTable C.env) (some (nm "gotcha"))
        { s with mainWrapped := true } = .ok (s1, c1) := e1
    have f1' : wrapInner C.env (mainTable C.env) (some (nm "gotcha")) s1 = .ok (s2, c2) := f1
    simp only [onMainReal, hm, bind, Except.bind, e1', f1', Bool.false_eq_true, if_false]
  · exact (e4.trans f4).mainW rfl
  · intro l hacc hrel
    have hU : C.U l := by
      obtain ⟨X, Y, e, -⟩ := hacc
      exact (h.objs l (by rw [e]; simp)).1
    rw [← genOf_eq w f2.lib hU, genOf_eq w f3 hU]
    refine f8 ⟨nm "main", by simp [mainTable], hch1⟩ l ?_ hrel
    rw [e4.filter, e4.linkMap]
    exact hacc
  · intro a
    rcases f7 a with e | ⟨l, hl, q, hq, e, hn⟩
    · rcases e7 a with e' | ⟨l, hl, q, hq, e', hn⟩
      · exact Or.inl (e.trans e')
      · refine Or.inr ⟨l, hl, q, hq, e', Or.inl ?_⟩
        simpa [libcMainTable] using hn
    · rw [e4.linkMap] at hl
      refine Or.inr ⟨l, hl, q, hq, e, Or.inr ?_⟩
      simpa [mainTable] using hn

/-- Processing the binding for "main": the block, then the binding. -/
theorem processOne_main {C : Ctx} {om : State → Except Fault State} {n : Nat} {b : BId} {t u}
    {s s' : State} {G G' : Gh} {A A' : Abs} {nb} {nf : Nat} (h : Inv C s G A) (h' : Inv C s' G' A')
    (hk : Keep C s G s' G') (hbu : btu s.binds b = some (t, u)) (hu : u.name = nm "main")
    (ho : om s = .ok s') :
    processOne C.env om n b s nb nf = processOne C.env (fun s => .ok s) n b s' nb nf := by
  have hbu' := hk.tu hbu
  obtain ⟨x, hx, -, hxu⟩ := btu_get hbu
  obtain ⟨x', hx', -, hxu'⟩ := btu_get hbu'
  have hro : rewriteOrders om s b = rewriteOrders (fun s => .ok s) s' b := by
    rw [rewriteOrders_eq om hbu (h.bind.okt hbu), rewriteOrders_eq _ hbu' (h'.bind.okt hbu'),
      if_pos hu, if_pos hu, ho, prB_mono (fun hy => hk.tu hy) hk.np hbu
        (by simpa [Tools.np] using h.bind.okt hbu)]
  simp only [processOne, State.bind, hx, hx', hro, bind, Except.bind, hxu, hxu']

theorem processBindings_append (env : Env) (om : State → Except Fault State) (n : Nat)
    (bs bs' : List BId) : ∀ (s : State) (nb : Option (HTable Name BId)) (nf : Nat),
    processBindings env om n (bs ++ bs') s nb nf =
      processBindings env om n bs s nb nf >>= fun r => processBindings env om n bs' r.1 r.2.1 r.2.2 := by
  induction bs with
  | nil => intro s nb nf; rfl
  | cons b bs ih =>
    intro s nb nf
    rw [List.cons_append, processBindings_cons, processBindings_cons]
    cases processOne env om n b s nb nf with
    | error e => rfl
    | ok r => exact ih _ _ _

/-- gotcha_wrap of a table whose first entry for "main" comes after `us1` and before `us2`: nothing is
written but the slots for `main` and `__libc_start_main`, and all accepted libraries are up to date
afterwards. -/
theorem wrapMain_facts {C : Ctx} (w : World C.env C.U) {s : State} {G : Gh} {A : Abs}
    (h : Inv C s G A) (hnh : ¬ C.hon) (hns : ¬ C.sl) (hm : s.mainWrapped = false)
    (hch : G.ch (nm "main") = []) (us1 us2 : List UBinding) (u : UBinding)
    (hu1 : ∀ v ∈ us1, v.name ≠ nm "main") (hu : u.name = nm "main") (tool : Option Name) :
    ∃ s' c lm', wrapCore C.env (onMainReal C.env) (us1 ++ u :: us2) tool s = .ok (s', c) ∧
      LibInv C.U G.seen s'.libTab s'.libs lm' ∧
      (∀ a, s'.mem a = s.mem a ∨ ∃ l ∈ s.linkMap, ∃ q ∈ rlOf l, a = l.addr + q.1 ∧
        (q.2 = nm "__libc_start_main" ∨ q.2 = nm "main")) ∧
      (∀ l, Accepted s.filter s.linkMap l → HasRel l → genAt s'.libs lm' l = s'.gen) := by
  have hom := onMainReal_spec w (C := C) (fun hh => absurd hh hnh)
  set tbl := us1 ++ u :: us2 with htbl
  generalize htn : tool.getD (nm "[UNSPECIFIED]") = tn at *
  obtain ⟨ts, tid, p, H, hgc, hnp, hadd, hI, hK⟩ := setup_inv h tn tbl (fun hx => absurd hx hnh)
    (fun hx => absurd hx hns)
  set s1 : State := { s with
          tools := ts
          gen := s.gen + 1
          binds := s.binds ++ tbl.map (mkB tid)
          handles := H } with hs1
  set G1 : Gh := { G with
    pend := fun c => G.pend c ∨ c ∈ List.range' s.binds.length tbl.length } with hG1
  have hbs : (List.range' s.binds.length tbl.length).map (btu s1.binds) =
      tbl.map (fun u => some (tid, u)) := by
    apply List.ext_getElem?
    intro i
    simp only [List.getElem?_map]
    by_cases hi : i < tbl.length
    · rw [List.getElem?_range' (by simpa using hi), List.getElem?_eq_getElem hi]
      simp only [Option.map_some, Nat.one_mul]
      congr 1
      show btu (s.binds ++ tbl.map (mkB tid)) _ = _
      simp [btu, List.getElem?_append_right, List.getElem?_eq_getElem hi, mkB]
    · rw [List.getElem?_eq_none (by simp; omega), List.getElem?_eq_none (by omega)]
      rfl
  have hn : 0 < tbl.length := by rw [htbl, List.length_append, List.length_cons]; omega
  have hpend0 : ∀ b ∈ List.range' s.binds.length tbl.length, G1.pend b := fun b hb => Or.inr hb
  have hnd0 : (List.range' s.binds.length tbl.length).Nodup := List.nodup_range'
  -- the table in three parts
  obtain ⟨bs1, b, bs2, hbs12, hb1, hb, hb2⟩ : ∃ bs1 b bs2,
      List.range' s.binds.length tbl.length = bs1 ++ b :: bs2 ∧
      bs1.map (btu s1.binds) = us1.map (fun u => some (tid, u)) ∧
      btu s1.binds b = some (tid, u) ∧
      bs2.map (btu s1.binds) = us2.map (fun u => some (tid, u)) := by
    rw [htbl, List.map_append, List.map_cons] at hbs
    obtain ⟨bs1, r, e1, e2, e3⟩ := List.map_eq_append_iff.1 hbs
    obtain ⟨b, bs2, e4, e5, e6⟩ := List.map_eq_cons_iff.1 e3
    exact ⟨bs1, b, bs2, by rw [e1, e4], e2, e5, e6⟩
  rw [hbs12] at hpend0 hnd0
  have hnd1 := (List.nodup_append.1 hnd0).1
  have hnd2 := (List.nodup_append.1 hnd0).2.1
  rw [List.nodup_cons] at hnd2
  have hdis := (List.nodup_append.1 hnd0).2.2
  -- before "main"
  obtain ⟨s2, G2, nb2, m2, nf2, f1, f2, f3, f4, f5, f6, f7, f8, f9, f10, -, -, -, -, -, f16,
      f17, f18⟩ :=
    processBindings_spec w hom (n := tbl.length) hn (t := tid)
      (tool := tn) (p := p) (D := G.dirty) (nb := none) (nf := 0) (m := fun _ => none) us1 hI
      hnd1 hb1 (fun c hc => hpend0 c (by simp [hc])) hnp (Or.inl ⟨rfl, fun _ => rfl⟩)
      (by intro f b e; cases e) (by funext f; simp [hG1]) (fun hs => absurd hs hns)
  obtain ⟨q2, -⟩ := f10 (Or.inl hu1)
  have hm2 : s2.mainWrapped = false := by rw [q2.mainW]; exact hm
  have hch2 : G2.ch (nm "main") = [] := by
    rw [(f18 (Or.inl hu1)).2.1 _ (by
      rw [List.mem_map]
      rintro ⟨v, hv, e⟩
      exact hu1 v hv e)]
    exact hch
  have hfl2 : s2.filter = s.filter := f3.filter
  have hlm2 : s2.linkMap = s.linkMap := f3.linkMap
  -- the block
  obtain ⟨s3, G3, A3, g1, g2, g3, g4, g5, g6, g7, g8⟩ := onMain_facts w f2 hnh hns hm2 hch2
  have hbu2 : btu s2.binds b = some (tid, u) := f3.tu hb
  have hbu3 : btu s3.binds b = some (tid, u) := g3.tu hbu2
  have hnp3 : (Tools.np s3.tools.store)[tid]? = some (tn, p) := by
    obtain ⟨z, hz⟩ := f3.np.trans g3.np
    rw [← hz, List.getElem?_append_left (List.getElem?_eq_some_iff.1 hnp).1]; exact hnp
  have hone := processOne_main (om := onMainReal C.env) (n := tbl.length) (nb := nb2) (nf := nf2)
    f2 g2 g3 hbu2 hu g1
  have hent3 : NbEnt s3 G3 p m2 := by
    intro f c hc
    obtain ⟨i1, hd, i2, i3⟩ := f6 f c hc
    obtain ⟨hd', i4, i5⟩ := g3.heads i2
    exact ⟨g3.chs i1, hd', i4, Int.le_trans i3 i5⟩
  have hpend3 : ∀ c ∈ b :: bs2, G3.pend c := by
    intro c hc
    rw [g4, f4]
    refine ⟨hpend0 c (List.mem_append_right _ hc), fun hc' => ?_⟩
    exact hdis c hc' c hc rfl
  -- the binding for "main"
  obtain ⟨s4, G4, nb4, m4, nf4, i1, i2, i3, i4, i5, i6, i7, -, -, i10, -, -, -, -, -, -⟩ :=
    processOne_spec w (onMain_id C) (n := tbl.length) hn (nf := nf2) (D := G.dirty) g2
      (hpend3 b (by simp)) hbu3 hnp3 f5 hent3 (by rw [g5]; exact f7) (fun hs => absurd hs hns)
  obtain ⟨q4, -⟩ := i10 (Or.inr trivial)
  have hm4 : s4.mainWrapped = true := by rw [q4.mainW]; exact g6
  have hnp4 : (Tools.np s4.tools.store)[tid]? = some (tn, p) := by
    obtain ⟨z, hz⟩ := i3.np
    rw [← hz, List.getElem?_append_left (List.getElem?_eq_some_iff.1 hnp3).1]; exact hnp3
  have hb4 : bs2.map (btu s4.binds) = us2.map (fun u => some (tid, u)) := by
    rw [← hb2]
    refine List.map_congr_left fun c hc => ?_
    have hcl := hI.bind.pendb (hpend0 c (by simp [hc]))
    obtain ⟨t', u', hcu⟩ := btu_of_lt hcl
    rw [hcu, i3.tu (g3.tu (f3.tu hcu))]
  -- after "main"
  obtain ⟨s5, G5, nb5, m5, nf5, j1, j2, j3, j4, j5, j6, j7, -, -, j10, -⟩ :=
    processBindings_spec w hom (n := tbl.length) hn (t := tid)
      (tool := tn) (p := p) (D := G.dirty) (nb := nb4) (nf := nf4) (m := m4) us2 i2
      hnd2.2 hb4 (fun c hc => by
        rw [i4]
        exact ⟨hpend3 c (List.mem_cons_of_mem _ hc), fun e => hnd2.1 (by rw [← e]; exact hc)⟩)
      hnp4 i5 i6 i7 (fun hs => absurd hs hns)
  obtain ⟨q5, -⟩ := j10 (Or.inr hm4)
  have hproc : processBindings C.env (onMainReal C.env) tbl.length
      (List.range' s.binds.length tbl.length) s1 none 0 = .ok (s5, nb5, nf5) := by
    rw [hbs12, processBindings_append, f1]
    show processBindings C.env (onMainReal C.env) tbl.length (b :: bs2) s2 nb2 nf2 = _
    rw [processBindings_cons, hone, i1]
    exact j1
  have hwrap : wrapCore C.env (onMainReal C.env) tbl tool s =
      (match nb5 with
        | none => Except.ok s5
        | some t => s5.updateAll C.env t) >>= fun s' =>
          .ok (s', if nf5 > 0 then .functionNotFound else .success) := by
    unfold wrapCore
    rw [htn]
    obtain ⟨H0, hf, -⟩ := fold_handles tbl s
    rw [hf] at hadd ⊢
    simp only [bind, Except.bind, hgc]
    rw [hadd]
    simp only [hproc]
    cases nb5 <;> rfl
  have q35 := q4.trans q5
  have k5 := ((hK.trans f3).trans g3).trans (i3.trans j3)
  have hmem5 : ∀ a, s5.mem a = s.mem a ∨ ∃ l ∈ s.linkMap, ∃ q ∈ rlOf l, a = l.addr + q.1 ∧
        (q.2 = nm "__libc_start_main" ∨ q.2 = nm "main") := by
    intro a
    rw [q35.mem, ← hlm2]
    rcases g8 a with e | e
    · left; rw [e, q2.mem]
    · exact Or.inr e
  have hgen5 : ∀ l, Accepted s.filter s.linkMap l → HasRel l →
      genAt s5.libs G5.lm l = s5.gen := by
    intro l hacc hrel
    rw [genAt_ext q35.ext, q35.gen]
    exact g7 l (by rw [hfl2, hlm2]; exact hacc) hrel
  rcases j5 with ⟨rfl, hm0⟩ | ⟨t, rfl, ht⟩
  · exact ⟨s5, _, G5.lm, hwrap, (by rw [← k5.seen]; exact j2.lib), hmem5, hgen5⟩
  · obtain ⟨tl, libs', lm', wr', mem', x1, x2, x3, x4, x5⟩ :=
      pass_facts w j2 ht (fun f b hb => (j6 f b hb).1)
    refine ⟨{ s5 with libTab := tl, libs := libs', wr := wr', mem := mem' },
      if nf5 > 0 then .functionNotFound else .success, lm', ?_, ?_, ?_, ?_⟩
    · rw [hwrap]
      simp only [x1, bind, Except.bind]
    · rw [← k5.seen]; exact x2
    · intro a
      rcases x5 a with e | ⟨l, hl, hne, q, hq, e, -, hacc⟩
      · show mem' a = s.mem a ∨ _
        rw [e]; exact hmem5 a
      · exact absurd (hgen5 l (by rw [← k5.filter, ← k5.linkMap]; exact hacc) (hasRel_of_mem hq)) hne
    · intro l hacc hrel
      exact x4 l (by rw [k5.filter, k5.linkMap]; exact hacc) hrel

/-- The first call into GOTCHA wraps nothing called "main". -/
theorem init_main {C : Ctx} (w : World C.env C.U) (hnh : ¬ C.hon) (hns : ¬ C.sl) {seen s A}
    (h : Pre C seen s A) (hv : C.v = C.env.vdsoOf s.linkMap) {s'}
    (he : gotchaInit C.env s = .ok s') :
    s'.mainWrapped = false ∧ nameLookup s'.funTab (nm "main") = .ok none ∧
      (∀ a, s'.mem a = s.mem a ∨ ∃ l ∈ s.linkMap, ∃ q ∈ rlOf l, a = l.addr + q.1 ∧
        q.2 ∈ (dlTable C.env).map UBinding.name) := by
  obtain ⟨lt, ft, nt, hlt, hft, hnt, h0⟩ := pre_inv w h hv
  have hin : s.inited = false := by rw [h.st]; rfl
  have hmainW : s.mainWrapped = false := by rw [h.st]; rfl
  obtain ⟨s1, c, lm', e1, -, e3, -, e4, e5, -⟩ := wrap_facts w
    (onMainReal_spec w (C := C) (fun hh => absurd hh hnh)) h0 hnh hns (dlTable C.env)
    (some (nm "gotcha")) (Or.inl (dl_not_main C.env))
  simp only [gotchaInit, hin, Bool.false_eq_true, if_false, hlt, hft, hnt, bind, Except.bind,
    wrapBody, e1, Except.ok.injEq] at he
  subst he
  refine ⟨e5.trans hmainW, ?_, e3⟩
  rw [e4 _ (by
    rw [List.mem_map]
    rintro ⟨u, hu, e⟩
    exact dl_not_main C.env u hu e)]
  exact (ch_nil_iff h0 _).2 rfl

end Gotcha

namespace Gotcha.Spec
open Gotcha HTable

/-- As long as no table has named "main", GOTCHA has no wrapper for it. -/
theorem main_fresh {p : Process} (ok : p.Ok) {ops : List Op} (h : Events p False ops)
    (hm : ∀ o ∈ ops, ¬ hasMain (tableOf o)) {s os} (hr : run p.env ops p.start = .ok (s, os)) :
    s.mainWrapped = false ∧ (s.inited = true → nameLookup s.funTab (nm "main") = .ok none) := by
  induction ops using List.reverseRecOn generalizing s os with
  | nil => cases hr; exact ⟨rfl, fun hc => by cases hc⟩
  | append_singleton ops op ih =>
    obtain ⟨s0, os0, o, h1, h2, -⟩ := run_last hr
    obtain ⟨i1, i2⟩ := ih h.prefix (fun o ho => hm o (by simp [ho])) h1
    have ht := events_run ok h.prefix h1
    -- after gotcha_init
    have hinit : ∀ {s1}, gotchaInit p.env s0 = .ok s1 →
        s1.mainWrapped = false ∧ nameLookup s1.funTab (nm "main") = .ok none := by
      intro s1 e
      rcases ht with ht | ⟨v, G, ht⟩
      · have h' : Pre ((p.ctx False False).at (p.env.vdsoOf s0.linkMap)) (seenRun p.seen ops) s0
            (Abs.run p.env ops p.abs).1 :=
          ⟨ht.st, ht.abs, ht.objs, ht.nd, ht.placed, ht.cover, ht.ne, ht.slots⟩
        obtain ⟨k1, k2, -⟩ := init_main (C := (p.ctx False False).at (p.env.vdsoOf s0.linkMap)) ok.world
          id id h' rfl e
        exact ⟨k1, k2⟩
      · have hin : s0.inited = true := ht.inv.init
        simp only [gotchaInit, hin, if_true, Except.ok.injEq] at e
        subst e
        exact ⟨i1, i2 hin⟩
    cases op with
    | wrap tbl tool =>
      have hnm : ¬ hasMain tbl := hm (.wrap tbl tool) (by simp)
      obtain ⟨⟨s2, c⟩, e2, e3⟩ := ebind h2
      cases e3
      obtain ⟨s1, e1, e2⟩ := ebind e2
      obtain ⟨j1, j2⟩ := hinit e1
      obtain ⟨s1', v, G, e1', hP, -⟩ := top_init (C := p.ctx False False) ok.world
        (fun hc => absurd hc id) (by omega) ht
      have e1'' : gotchaInit p.env s0 = .ok s1' := e1'
      rw [e1] at e1''
      cases e1''
      obtain ⟨s3, c', lm', f1, -, -, -, f4, f5, -⟩ := wrap_facts (C := (p.ctx False False).at v) ok.world
        (onMainReal_spec ok.world (fun hc => absurd hc id)) hP.inv id id tbl tool
        (Or.inl fun u hu e => hnm ⟨u, hu, e⟩)
      have f1' : wrapBody p.env tbl tool s1 = .ok (s3, c') := f1
      rw [e2] at f1'
      cases f1'
      refine ⟨f5.trans j1, fun _ => ?_⟩
      rw [f4 _ (by
        rw [List.mem_map]
        rintro ⟨u, hu, e⟩
        exact hnm ⟨u, hu, e⟩)]
      exact j2
    | setPriority t v =>
      obtain ⟨s2, e2, e3⟩ := ebind h2
      cases e3
      obtain ⟨s1, e1, e2⟩ := ebind e2
      obtain ⟨ts, -, e2⟩ := ebind e2
      cases e2
      obtain ⟨j1, j2⟩ := hinit e1
      exact ⟨j1, fun _ => j2⟩
    | getPriority t =>
      obtain ⟨⟨s2, v⟩, e2, e3⟩ := ebind h2
      cases e3
      obtain ⟨s1, e1, e2⟩ := ebind e2
      obtain ⟨ts, -, e2⟩ := ebind e2
      cases e2
      obtain ⟨j1, j2⟩ := hinit e1
      exact ⟨j1, fun _ => j2⟩
    | setFilter f => cases h2; exact ⟨i1, i2⟩
    | load ld => cases h2; exact ⟨i1, i2⟩
    | unload d => cases h2; exact ⟨i1, i2⟩
    | dlopen ld =>
      cases hin : s0.inited with
      | false =>
        simp only [stepOp, hin, Bool.false_eq_true, if_false, Except.ok.injEq, Prod.mk.injEq] at h2
        rw [← h2.1]
        refine ⟨i1, fun hc => ?_⟩
        have : (s0.load ld).inited = s0.inited := rfl
        rw [this, hin] at hc
        cases hc
      | true =>
        rcases ht with ht | ⟨v, G, hP⟩
        · rw [ht.st] at hin; cases hin
        obtain ⟨-, hv⟩ := valid_snoc ops _ (start_valid (hon := False) h fun hc => absurd hc id)
        have hA : (Abs.run (p.ctx False False).env ops p.abs).1.libs = s0.linkMap := hP.inv.libs
        have hlo : LoadOk ((p.ctx False False).at v) (seenRun p.seen ops) s0.linkMap ld := by
          rw [← hA]
          exact ⟨hv.1.objs, hv.1.nd, hv.1.again, hv.1.placed, hv.1.old, hv.1.cover, hv.1.cons, hv.1.keep⟩
        simp only [stepOp, hin, if_true, bind, Except.bind] at h2
        have hw : ∃ a, s0.getWrappee p.env.hDlopen = .ok a := by
          cases hx : s0.getWrappee p.env.hDlopen with
          | error e => simp [dlopenWrapper, hx, bind, Except.bind] at h2
          | ok a => exact ⟨a, rfl⟩
        obtain ⟨s1, lm', e1, ⟨-, e2, e3⟩, -⟩ := dlopen_facts (C := (p.ctx False False).at v) ok.world
          hP hlo hw
        have e1' : dlopenWrapper p.env ld s0 = .ok s1 := e1
        rw [e1'] at h2
        simp only [Except.ok.injEq, Prod.mk.injEq] at h2
        rw [← h2.1, e2, e3]
        exact ⟨i1, fun _ => i2 hin⟩

/-- The state in which the body of gotcha_wrap starts, when no table has named "main" yet. -/
theorem init_step {p : Process} (ok : p.Ok) {ops : List Op} (h : Events p False ops)
    (hm : ∀ o ∈ ops, ¬ hasMain (tableOf o)) {s os} (hr : run p.env ops p.start = .ok (s, os)) {s1}
    (he : gotchaInit p.env s = .ok s1) :
    s1.mainWrapped = false ∧ nameLookup s1.funTab (nm "main") = .ok none ∧
      ∀ a, s1.mem a = s.mem a ∨ ∃ l, p.U l ∧ ∃ q ∈ rlOf l, a = l.addr + q.1 ∧
        q.2 ∈ (dlTable p.env).map UBinding.name := by
  rcases events_run ok h hr with ht | ⟨v, G, ht⟩
  · have h' : Pre ((p.ctx False False).at (p.env.vdsoOf s.linkMap)) (seenRun p.seen ops) s
        (Abs.run p.env ops p.abs).1 :=
      ⟨ht.st, ht.abs, ht.objs, ht.nd, ht.placed, ht.cover, ht.ne, ht.slots⟩
    obtain ⟨k1, k2, k3⟩ := init_main (C := (p.ctx False False).at (p.env.vdsoOf s.linkMap)) ok.world
      id id h' rfl he
    refine ⟨k1, k2, fun a => ?_⟩
    rcases k3 a with e | ⟨l, hl, q, hq, e, hn⟩
    · exact Or.inl e
    · exact Or.inr ⟨l, (ht.objs l hl).1, q, hq, e, hn⟩
  · have hin : s.inited = true := ht.inv.init
    obtain ⟨i1, i2⟩ := main_fresh ok h hm hr
    simp only [gotchaInit, hin, if_true, Except.ok.injEq] at he
    subst he
    exact ⟨i1, i2 hin, fun _ => Or.inl rfl⟩

/-- gotcha_wrap of a table that names "main" for the first time. -/
theorem step_main {p : Process} (ok : p.Ok) {ops : List Op} {tbl : List UBinding}
    {tool : Option Name} (h : Events p False ops) (hm : ∀ o ∈ ops, ¬ hasMain (tableOf o))
    (hmain : hasMain tbl) {s os s' o} (hr : run p.env ops p.start = .ok (s, os))
    (hs : stepOp p.env (.wrap tbl tool) s = .ok (s', o)) :
    (∀ a, s'.mem a = s.mem a ∨ ∃ l, p.U l ∧ ∃ q ∈ rlOf l, a = l.addr + q.1 ∧
        q.2 ∈ (ownTable p.env).map UBinding.name) ∧
      ∀ l, Admitted (filterAfter ops) (libsAfter p.libs ops) l → HasRel l →
        genOf s' l = s'.gen := by
  obtain ⟨⟨s2, c0⟩, e20, e30⟩ := ebind hs
  cases e30
  obtain ⟨si, hi, hb⟩ := ebind e20
  obtain ⟨si', v, G, hi', hP, hEff⟩ := top_init (C := p.ctx False False) ok.world
    (fun hc => absurd hc id) (by omega) (events_run ok h hr)
  have hi'' : gotchaInit p.env s = .ok si' := hi'
  rw [hi] at hi''
  cases hi''
  obtain ⟨hmw, hlk, hmem⟩ := init_step ok h hm hr hi
  obtain ⟨us1, u, us2, rfl, hu1, hu⟩ : ∃ us1 u us2, tbl = us1 ++ u :: us2 ∧
      (∀ v ∈ us1, v.name ≠ nm "main") ∧ u.name = nm "main" := by
    clear hs hb e20
    induction tbl with
    | nil => obtain ⟨u, hu, -⟩ := hmain; cases hu
    | cons x tbl ih =>
      by_cases hx : x.name = nm "main"
      · exact ⟨[], x, tbl, rfl, (fun v hv => by cases hv), hx⟩
      · obtain ⟨us1, u, us2, e1, e2, e3⟩ := ih (by
          obtain ⟨u, hu, e⟩ := hmain
          rcases List.mem_cons.1 hu with rfl | hu
          · exact absurd e hx
          · exact ⟨u, hu, e⟩)
        refine ⟨x :: us1, u, us2, by rw [e1]; rfl, ?_, e3⟩
        intro v hv
        rcases List.mem_cons.1 hv with rfl | hv
        · exact hx
        · exact e2 v hv
  obtain ⟨s1, c, lm', e1, e2, e3, e4⟩ := wrapMain_facts (C := (p.ctx False False).at v) ok.world
    hP.inv id id hmw ((ch_nil_iff hP.inv _).1 hlk) us1 us2 u hu1 hu tool
  have e1' : wrapBody p.env (us1 ++ u :: us2) tool si = .ok (s1, c) := e1
  rw [hb] at e1'
  cases e1'
  refine ⟨?_, ?_⟩
  · intro a
    rcases e3 a with e | ⟨l, hl, q, hq, e, hn⟩
    · rcases hmem a with e' | ⟨l, hl, q, hq, e', hn⟩
      · exact Or.inl (e.trans e')
      · refine Or.inr ⟨l, hl, q, hq, e', ?_⟩
        rw [ownTable, List.map_append, List.map_append]
        simp only [List.mem_append, hn, true_or]
    · refine Or.inr ⟨l, (hP.inv.objs l hl).1, q, hq, e, ?_⟩
      rw [ownTable, List.map_append, List.map_append]
      simp only [List.mem_append]
      rcases hn with hn | hn
      · exact Or.inl (Or.inr (by rw [hn]; exact List.mem_cons_self))
      · exact Or.inr (by rw [hn]; exact List.mem_cons_self)
  · intro l hadm hrel
    obtain ⟨en1, en2⟩ := events_env ok ops h hr
    have hU : ∀ l ∈ libsAfter p.libs ops, p.U l := by
      intro l hl
      rw [← en1] at hl
      have k1 : si.linkMap = s.linkMap := hEff.linkMap
      rw [← k1] at hl
      exact (hP.inv.objs l hl).1
    have hacc := admitted_accepted (env := p.env) ok.world hU hadm
    rw [← en1, ← en2] at hacc
    have hlU : p.U l := by
      obtain ⟨X, Y, e, -⟩ := hadm
      exact hU l (by rw [e]; simp)
    rw [genOf_eq (env := p.env) (U := p.U) ok.world e2 hlU]
    refine e4 l ?_ hrel
    have k1 : si.linkMap = s.linkMap := hEff.linkMap
    have k2 : si.filter = s.filter := hEff.filter
    rw [k1, k2]
    exact hacc

end Gotcha.Spec
