import Verif.Proof.CoreProc
/-
gotcha_wrap as a whole.
-/
namespace Gotcha
open HTable
open Spec (exportsAt firstDef insertBefore Frame Abs)

theorem wrapperOf_eq (binds : List IBinding) : wrapperOf binds = bwr binds := by
  funext b
  simp only [wrapperOf, bwr, btu]
  cases binds[b]? <;> rfl

theorem procList_mem {flt : Filter} {g : BitVec 32} {R : Lib → Option LibRec} {l : Lib} :
    ∀ {ls : List Lib}, l ∈ procList flt g R ls → Accepted flt ls l := by
  intro ls
  induction ls with
  | nil => intro h; cases h
  | cons k ls ih =>
    intro h
    rw [procList] at h
    have hrest : l ∈ procList flt g R ls → Accepted flt (k :: ls) l := by
      intro hl
      obtain ⟨X, Y, e1, e2⟩ := ih hl
      exact ⟨k :: X, Y, by rw [e1]; rfl, e2⟩
    split at h
    · rename_i hp
      rcases List.mem_cons.1 h with rfl | h
      · refine ⟨[], ls, rfl, ?_⟩
        unfold processed at hp
        cases ha : flt.accepts l (!ls.isEmpty) with
        | error e => simp [ha] at hp
        | ok b => simp [ha] at hp; rw [hp.1]
      · exact hrest h
    · exact hrest h

theorem procList_all {flt : Filter} {g : BitVec 32} {R : Lib → Option LibRec} {l : Lib}
    (ha : ∀ b, flt.accepts l b = .ok true) :
    ∀ {ls : List Lib}, l ∈ ls → ((R l).getD ⟨0, false, 0⟩).gen ≠ g →
      l ∈ procList flt g R ls := by
  intro ls
  induction ls with
  | nil => intro h; cases h
  | cons k ls ih =>
    intro h hg
    rw [procList]
    rcases List.mem_cons.1 h with rfl | h
    · rw [if_pos (by simp only [processed, ha, Bool.true_and, Bool.not_eq_true', decide_eq_false_iff_not]; exact hg)]; simp
    · split
      · exact List.mem_cons_of_mem _ (ih h hg)
      · exact ih h hg

/-- A pass over the link map with a table `m` of bindings. -/
theorem pass_inv {C : Ctx} (w : World C.env C.U) {s : State} {G : Gh} {A : Abs}
    {t : HTable Name BId} {m} {D : Name → Prop} (h : Inv C s G A) (ht : TabMap strhash t m)
    (hm : ∀ f b, m f = some b → b ∈ G.ch f)
    (hsl1 : C.sl → ∀ f b, m f = some b → (G.ch f).head? = some b)
    (hsl2 : C.sl → ∀ l ∈ s.linkMap, C.good l → ∀ p ∈ rlOf l, ¬ D p.2 → ∀ b, (G.ch p.2).head? = some b →
      (m p.2 = some b ∧ genAt s.libs G.lm l ≠ s.gen) ∨
        bwr s.binds b = some (s.mem (l.addr + p.1))) :
    ∃ tl libs' lm' wr' mem',
      s.updateAll C.env t =
        .ok { s with libTab := tl, libs := libs', wr := wr', mem := mem' } ∧
      Inv C { s with libTab := tl, libs := libs', wr := wr', mem := mem' }
        { G with lm := lm', dirty := D } A ∧
      Keep C s G { s with libTab := tl, libs := libs', wr := wr', mem := mem' }
        { G with lm := lm', dirty := D } := by
  have hbd : ∀ f b, m f = some b → b < s.binds.length := by
    intro f b hb
    obtain ⟨t, u, e, -⟩ := h.bind.named (hm f b hb)
    exact btu_lt e
  obtain ⟨tl, libs', lm', wr', mem', hL, hW, hwr, hrs, hmk, hmem, he⟩ :=
    updateLibs_spec w ht s.linkMap h.nd h.lib h.wr h.objs h.placed hbd (fun l hl => hl)
  have hmem' : mem' = passMem (wOf s.binds m) (procList s.filter s.gen (recAt s.libs G.lm)
      s.linkMap) s.mem := hmem
  have hwof : ∀ f, wOf s.binds m f = (m f).bind (bwr s.binds) := by
    intro f; simp only [wOf, wrapperOf_eq]
  refine ⟨tl, libs', lm', wr', mem', he, ?_, ?_⟩
  · refine
      { tools := h.tools
        bind := h.bind
        fn := h.fn
        nf := h.nf
        nfm := h.nfm
        lib := hL
        wr := hW
        objs := h.objs
        nd := h.nd
        placed := h.placed
        vd := h.vd
        hon := h.hon
        nfr := h.nfr
        fresh := h.fresh
        onch := h.onch
        slots := ?_
        prio := h.prio
        stack := h.stack
        real := h.real
        libs := h.libs
        vdso := h.vdso
        mainW := h.mainW
        init := h.init
        init' := h.init' }
    intro hsl
    have hS := h.slots hsl
    refine ⟨hS.all, hS.cons, ?_, ?_⟩
    · intro l
      have hg := hS.gens l
      show (genAt libs' lm' l).toNat ≤ s.gen.toNat
      unfold genAt at hg ⊢
      rcases hrs l with e | ⟨x, e, e' | e'⟩
      · rw [e]; exact hg
      · rw [e]; simp [e']
      · rw [e]; simpa [e'] using hg
    · intro l hl hgd p hp hd b hb
      show bwr s.binds b = some (mem' (l.addr + p.1))
      have hwritten : ∀ l' ∈ s.linkMap, ∀ q ∈ rlOf l', l.addr + p.1 = l'.addr + q.1 →
          wOf s.binds m q.2 = some (mem' (l.addr + p.1)) →
          bwr s.binds b = some (mem' (l.addr + p.1)) := by
        intro l' hl' q hq e hwq
        have hn := hS.cons l hl l' hl' p hp q hq e
        rw [← hn, hwof] at hwq
        cases hmq : m p.2 with
        | none => rw [hmq] at hwq; cases hwq
        | some b' =>
          have := hsl1 hsl _ _ hmq
          rw [show (G.ch p.2).head? = some b from hb] at this
          cases this
          rw [hmq] at hwq
          exact hwq
      have hpm : ∀ l' ∈ procList s.filter s.gen (recAt s.libs G.lm) s.linkMap, l' ∈ s.linkMap := by
        intro l' hl'
        obtain ⟨X, Y, e, -⟩ := procList_mem hl'
        rw [e]; simp
      rcases passMem_or (wOf s.binds m) (procList s.filter s.gen (recAt s.libs G.lm)
        s.linkMap) s.mem (l.addr + p.1) with e | ⟨l', hl', q, hq, e, hwq⟩
      · rcases hsl2 hsl l hl hgd p hp hd b hb with ⟨e1, e2⟩ | e1
        · have hin : l ∈ procList s.filter s.gen (recAt s.libs G.lm) s.linkMap := by
            exact procList_all (hS.all l hgd) hl e2
          have hbl : (wOf s.binds m p.2).isSome := by
            rw [hwof, e1]
            obtain ⟨t', u', hbu⟩ := btu_of_lt (hbd _ _ e1)
            simp [bwr, hbu]
          obtain ⟨l', hl', q, hq, e', hwq⟩ := passMem_written (wOf s.binds m) _ s.mem hin hp hbl
          rw [← hmem'] at hwq
          exact hwritten l' (hpm l' hl') q hq e' hwq
        · rw [hmem', e]; exact e1
      · rw [← hmem'] at hwq
        exact hwritten l' (hpm l' hl') q hq e hwq
  · refine ⟨rfl, fun hy => hy, List.prefix_refl _, fun hy => ⟨_, hy, Int.le_refl _⟩, fun hy => hy,
      rfl, rfl, fun hy => hy, fun _ => rfl, ?_, hwr, fun _ => Nat.le_refl _⟩
    intro a
    show mem' a = s.mem a ∨ _
    rcases passMem_or (wOf s.binds m) (procList s.filter s.gen (recAt s.libs G.lm)
        s.linkMap) s.mem a with e | ⟨l', hl', q, hq, e, hwq⟩
    · left; rw [hmem']; exact e
    · right
      rw [← hmem', hwof] at hwq
      cases hmq : m q.2 with
      | none => rw [hmq] at hwq; cases hwq
      | some b =>
        rw [hmq] at hwq
        exact ⟨l', q, b, procList_mem hl', hq, e, hm _ _ hmq, hwq⟩

/-! ### preparing a table -/

theorem fold_handles (us : List UBinding) : ∀ (s : State), ∃ H,
    us.foldl (fun s u => s.setHandle u.handle none) s = { s with handles := H } ∧
      ∀ h, h ∉ us.map UBinding.handle → H h = s.handles h := by
  induction us with
  | nil => intro s; exact ⟨s.handles, rfl, fun _ _ => rfl⟩
  | cons u us ih =>
    intro s
    obtain ⟨H, e, hH⟩ := ih (s.setHandle u.handle none)
    refine ⟨H, by rw [List.foldl_cons, e]; rfl, ?_⟩
    intro h hh
    simp only [List.map_cons, List.mem_cons, not_or] at hh
    rw [hH h hh.2]
    simp [State.setHandle, hh.1]

def mkB (tid : Nat) (u : UBinding) : IBinding := { tool := tid, user := u, next := none, wrappee := none }

theorem addBindings_eq (tid : Nat) (us : List UBinding) : ∀ (s : State), ∃ H,
    addBindings tid us s = { s with binds := s.binds ++ us.map (mkB tid), handles := H } ∧
    (∀ h, h ∉ us.map UBinding.handle → H h = s.handles h) ∧
    (∀ u ∈ us, ∃ b, H u.handle = some b ∧ b < s.binds.length + us.length) ∧
    ((us.map UBinding.handle).Nodup → ∀ i u, us[i]? = some u →
      H u.handle = some (s.binds.length + i)) := by
  induction us with
  | nil =>
    intro s
    exact ⟨s.handles, by simp [addBindings], fun _ _ => rfl, by simp, by simp⟩
  | cons u us ih =>
    intro s
    obtain ⟨H, e, h1, h2, h3⟩ := ih (State.setHandle { s with
      binds := s.binds ++ [{ tool := tid, user := u, next := none, wrappee := none }] }
      u.handle (some s.binds.length))
    refine ⟨H, ?_, ?_, ?_, ?_⟩
    · rw [addBindings, e]
      simp [State.setHandle, mkB]
    · intro h hh
      simp only [List.map_cons, List.mem_cons, not_or] at hh
      rw [h1 h hh.2]
      simp [State.setHandle, hh.1]
    · intro v hv
      by_cases hin : v.handle ∈ us.map UBinding.handle
      · obtain ⟨v', hv', e'⟩ := List.mem_map.1 hin
        obtain ⟨b, hb, hl⟩ := h2 v' hv'
        refine ⟨b, by rw [← e']; exact hb, ?_⟩
        simp [State.setHandle] at hl
        simp; omega
      · have hvu : v = u := by
          rcases List.mem_cons.1 hv with h | h
          · exact h
          · exact absurd (List.mem_map_of_mem h) hin
        refine ⟨s.binds.length, ?_, by simp⟩
        rw [h1 _ hin, hvu]
        simp [State.setHandle]
    · intro hnd i v hv
      simp only [List.map_cons, List.nodup_cons] at hnd
      cases i with
      | zero =>
        simp at hv
        subst hv
        rw [h1 _ hnd.1]
        simp [State.setHandle]
      | succ i =>
        simp at hv
        rw [h3 hnd.2 i v hv]
        simp [State.setHandle]
        omega

/-- What honest clients do with a table. -/
structure HonT (C : Ctx) (s : State) (tbl : List UBinding) : Prop where
  nodup : (tbl.map UBinding.handle).Nodup
  prog : ∀ u ∈ tbl, C.P u.wrapper = some u.handle
  unused : ∀ b t u, btu s.binds b = some (t, u) → u.handle ∉ tbl.map UBinding.handle
  fresh : s.mainWrapped = false → ∀ u ∈ tbl,
    u.handle ≠ C.env.hLibcMain ∧ u.handle ≠ C.env.hMain

theorem btu_append_old {binds new : List IBinding} {b : BId} (h : b < binds.length) :
    btu (binds ++ new) b = btu binds b := by
  simp [btu, List.getElem?_append_left h]

theorem bnx_append_old {binds new : List IBinding} {b : BId} (h : b < binds.length) :
    bnx (binds ++ new) b = bnx binds b := by
  simp [bnx, List.getElem?_append_left h]

theorem bwp_append_old {binds new : List IBinding} {b : BId} (h : b < binds.length) :
    bwp (binds ++ new) b = bwp binds b := by
  simp [bwp, List.getElem?_append_left h]

theorem get_append_new {binds : List IBinding} {tid : Nat} {us : List UBinding} {b : BId} {x}
    (hx : (binds ++ us.map (mkB tid))[b]? = some x) (h : ¬ b < binds.length) :
    ∃ u, us[b - binds.length]? = some u ∧ x = mkB tid u := by
  rw [List.getElem?_append_right (by omega), List.getElem?_map] at hx
  cases hu : us[b - binds.length]? with
  | none => simp [hu] at hx
  | some u => simp [hu] at hx; exact ⟨u, rfl, hx.symm⟩

theorem btu_append_new {binds : List IBinding} {tid : Nat} {us : List UBinding} {b : BId} {t u}
    (hx : btu (binds ++ us.map (mkB tid)) b = some (t, u)) (h : ¬ b < binds.length) :
    t = tid ∧ us[b - binds.length]? = some u := by
  obtain ⟨x, hx', rfl, rfl⟩ := btu_get hx
  obtain ⟨u, hu, rfl⟩ := get_append_new hx' h
  exact ⟨rfl, hu⟩

theorem setup_inv {C : Ctx} {s : State} {G : Gh} {A : Abs} (h : Inv C s G A) (tn : Name)
    (tbl : List UBinding) (hh : C.hon → HonT C s tbl)
    (hp : C.sl → s.gen.toNat + 1 < 2 ^ 32) :
    ∃ ts tid p H, s.tools.getOrCreate tn = .ok (ts, tid) ∧
      (Tools.np ts.store)[tid]? = some (tn, p) ∧
      addBindings tid tbl { (tbl.foldl (fun s u => s.setHandle u.handle none) s) with
          tools := ts, gen := s.gen + 1 } =
        { s with
          tools := ts
          gen := s.gen + 1
          binds := s.binds ++ tbl.map (mkB tid)
          handles := H } ∧
      Inv C { s with
          tools := ts
          gen := s.gen + 1
          binds := s.binds ++ tbl.map (mkB tid)
          handles := H }
        { G with pend := fun c => G.pend c ∨ c ∈ List.range' s.binds.length tbl.length }
        (A.touch tn) ∧
      Keep C s G { s with
          tools := ts
          gen := s.gen + 1
          binds := s.binds ++ tbl.map (mkB tid)
          handles := H }
        { G with pend := fun c => G.pend c ∨ c ∈ List.range' s.binds.length tbl.length } := by
  obtain ⟨L, hok⟩ := h.tools
  obtain ⟨ts, L', tid, tt, hgc, hok', hget, hname, hcase⟩ := Tools.getOrCreate_spec hok tn
  obtain ⟨H0, hf, hH0⟩ := fold_handles tbl s
  obtain ⟨H, ha, hH1, hH2, hH3⟩ := addBindings_eq tid tbl
    { s with handles := H0, tools := ts, gen := s.gen + 1 }
  have hpre : Tools.np s.tools.store <+: Tools.np ts.store := by
    rcases hcase with ⟨-, rfl⟩ | ⟨-, -, e⟩
    · exact List.prefix_refl _
    · rw [e]; exact List.prefix_append _ _
  have hnp : (Tools.np ts.store)[tid]? = some (tn, tt.priority) := by
    simp [Tools.np, hget, hname]
  have hlenp : s.tools.store.length ≤ ts.store.length := by
    have := hpre.length_le
    simpa [Tools.np] using this
  have htid : tid < ts.store.length := (List.getElem?_eq_some_iff.1 hget).1
  have hold : ∀ {b y}, btu s.binds b = some y → btu (s.binds ++ tbl.map (mkB tid)) b = some y :=
    fun hy => by rw [btu_append_old (btu_lt hy)]; exact hy
  have hsplit : ∀ {b t u}, btu (s.binds ++ tbl.map (mkB tid)) b = some (t, u) →
      (b < s.binds.length ∧ btu s.binds b = some (t, u)) ∨
      (¬ b < s.binds.length ∧ t = tid ∧ tbl[b - s.binds.length]? = some u) := by
    intro b t u hb
    by_cases hl : b < s.binds.length
    · rw [btu_append_old hl] at hb; exact Or.inl ⟨hl, hb⟩
    · exact Or.inr ⟨hl, btu_append_new hb hl⟩
  have hchl : ∀ {f b}, b ∈ G.ch f → b < s.binds.length := by
    intro f b hb
    obtain ⟨t, u, e, -⟩ := h.bind.named hb
    exact btu_lt e
  have hpr : ∀ {b}, b < s.binds.length →
      prB (s.binds ++ tbl.map (mkB tid)) (Tools.np ts.store) b =
        prB s.binds (Tools.np s.tools.store) b := by
    intro b hb
    obtain ⟨t, u, e⟩ := btu_of_lt hb
    exact prB_mono hold hpre e (by simpa [Tools.np] using h.bind.okt e)
  have hHout : ∀ hd, hd ∉ tbl.map UBinding.handle → H hd = s.handles hd := by
    intro hd hn
    rw [hH1 hd hn]; exact hH0 hd hn
  have hgen : C.sl → (s.gen + 1).toNat = s.gen.toNat + 1 := by
    intro hs
    have := hp hs
    rw [BitVec.toNat_add]
    simp
    omega
  refine ⟨ts, tid, tt.priority, H, hgc, hnp, ?_, ?_, ?_⟩
  · rw [hf]; exact ha
  · refine
      { tools := ⟨L', hok'⟩
        bind := ?_
        fn := h.fn
        nf := h.nf
        nfm := h.nfm
        lib := h.lib
        wr := h.wr
        objs := h.objs
        nd := h.nd
        placed := h.placed
        vd := h.vd
        hon := ?_
        nfr := h.nfr
        fresh := ?_
        onch := ?_
        slots := ?_
        prio := ?_
        stack := ?_
        real := h.real
        libs := h.libs
        vdso := h.vdso
        mainW := h.mainW
        init := h.init
        init' := h.init' }
    · refine ⟨?_, ?_, ?_, ?_, ?_, ?_, ?_⟩
      · intro f
        refine Seg.congr ?_ (h.bind.chain f)
        intro c hc
        exact bnx_append_old (hchl hc)
      · intro f b hb
        obtain ⟨t, u, e, e'⟩ := h.bind.named hb
        exact ⟨t, u, hold e, e'⟩
      · intro b t u hb
        rcases hsplit hb with ⟨-, e⟩ | ⟨-, rfl, -⟩
        · exact Nat.lt_of_lt_of_le (h.bind.okt e) hlenp
        · exact htid
      · intro b t u hb
        show ∃ b', H u.handle = some b' ∧ b' < (s.binds ++ tbl.map (mkB tid)).length
        by_cases hin : u.handle ∈ tbl.map UBinding.handle
        · obtain ⟨v, hv, e⟩ := List.mem_map.1 hin
          obtain ⟨b', h1, h2⟩ := hH2 v hv
          exact ⟨b', by rw [← e]; exact h1, by simpa using h2⟩
        · rcases hsplit hb with ⟨-, e⟩ | ⟨-, -, e⟩
          · obtain ⟨b', h1, h2⟩ := h.bind.okh e
            exact ⟨b', by rw [hHout _ hin]; exact h1, by simp; omega⟩
          · exact absurd (List.mem_map_of_mem (List.mem_of_getElem? e)) hin
      · intro b hb
        show b < (s.binds ++ tbl.map (mkB tid)).length
        rcases hb with hb | hb
        · have := h.bind.pendb hb; simp; omega
        · simp only [List.mem_range'_1] at hb; simp; omega
      · intro b hb
        show bnx (s.binds ++ tbl.map (mkB tid)) b = some none
        rcases hb with hb | hb
        · rw [bnx_append_old (h.bind.pendb hb)]; exact h.bind.pendn hb
        · simp only [List.mem_range'_1] at hb
          have hl : b < (s.binds ++ tbl.map (mkB tid)).length := by simp; omega
          obtain ⟨u, -, hu⟩ := get_append_new (List.getElem?_eq_getElem hl) (by omega)
          simp only [bnx, List.getElem?_eq_getElem hl, hu]
          rfl
      · intro b f hb hc
        have := hchl hc
        rcases hb with hb | hb
        · exact h.bind.pendc hb hc
        · simp only [List.mem_range'_1] at hb; omega
    · intro hhon
      have hT := hh hhon
      have hHon := h.hon hhon
      refine ⟨?_, ?_, ?_, ?_⟩
      · intro b t u hb
        show H u.handle = some b
        rcases hsplit hb with ⟨-, e⟩ | ⟨hl, -, e⟩
        · rw [hHout _ (hT.unused _ _ _ e)]; exact hHon.own e
        · rw [hH3 hT.nodup _ _ e]
          show some (s.binds.length + (b - s.binds.length)) = some b
          congr 1; omega
      · intro b t u hb
        rcases hsplit hb with ⟨-, e⟩ | ⟨hl, -, e⟩
        · exact hHon.prog e
        · exact hT.prog u (List.mem_of_getElem? e)
      · intro f
        refine WChain.congr ?_ ?_ (hHon.wch f)
        · intro b hb
          simp only [bwr, btu_append_old (hchl hb)]
        · intro b hb
          exact bwp_append_old (hchl hb)
      · intro b hb
        show bwp (s.binds ++ tbl.map (mkB tid)) b = some none
        rcases hb with hb | hb
        · rw [bwp_append_old (h.bind.pendb hb)]; exact hHon.pend hb
        · simp only [List.mem_range'_1] at hb
          have hl : b < (s.binds ++ tbl.map (mkB tid)).length := by simp; omega
          obtain ⟨u, -, hu⟩ := get_append_new (List.getElem?_eq_getElem hl) (by omega)
          simp only [bwp, List.getElem?_eq_getElem hl, hu]
          rfl
    · intro hhon hmw b t u hb
      rcases hsplit hb with ⟨-, e⟩ | ⟨hl, -, e⟩
      · exact h.fresh hhon hmw e
      · exact (hh hhon).fresh hmw u (List.mem_of_getElem? e)
    · intro hhon b hb
      replace hb : b < (s.binds ++ tbl.map (mkB tid)).length := hb
      simp at hb
      show (G.pend b ∨ b ∈ List.range' s.binds.length tbl.length) ∨ _
      by_cases hl : b < s.binds.length
      · rcases h.onch hhon b hl with h1 | h1
        · exact Or.inl (Or.inl h1)
        · exact Or.inr h1
      · left; right
        simp only [List.mem_range'_1]; omega
    · intro hsl
      have hS := h.slots hsl
      refine ⟨hS.all, hS.cons, ?_, ?_⟩
      · intro l
        have := hS.gens l
        show (genAt s.libs G.lm l).toNat ≤ (s.gen + 1).toNat
        rw [hgen hsl]
        omega
      · intro l hl hg q hq hd c hc
        have := hS.slot l hl hg q hq hd c hc
        show bwr (s.binds ++ tbl.map (mkB tid)) c = _
        exact bwr_mono hold this
    · intro n v
      show upd A.prio tn (some (A.prioOf tn)) n = some v ↔ (n, v) ∈ Tools.np ts.store
      rcases hcase with ⟨-, rfl⟩ | ⟨-, hnew, e⟩
      · have hmem := List.mem_of_getElem? hnp
        have hpv := prioOf_eq h hnp
        have hpr0 := (h.prio tn tt.priority).2 hmem
        by_cases e : n = tn
        · subst e
          rw [upd_self, hpv, ← hpr0]
          exact h.prio n v
        · rw [upd_ne _ _ e]; exact h.prio n v
      · have hnone : A.prio tn = none := by
          cases hx : A.prio tn with
          | none => rfl
          | some v =>
            have := (h.prio tn v).1 hx
            apply absurd _ hnew
            simp only [Tools.np, List.mem_map] at this ⊢
            obtain ⟨x, hx1, hx2⟩ := this
            exact ⟨x, hx1, by simpa using congrArg Prod.fst hx2⟩
        rw [e, List.mem_append, List.mem_singleton, Prod.mk.injEq]
        by_cases e : n = tn
        · subst e
          rw [upd_self]
          have : ¬ (n, v) ∈ Tools.np s.tools.store := fun hc => by
            rw [(h.prio n v).2 hc] at hnone; cases hnone
          simp only [Abs.prioOf, hnone, Option.getD_none, Option.some.injEq, this, false_or,
            true_and]
          exact eq_comm
        · rw [upd_ne _ _ e, h.prio n v]
          simp [e]
    · intro hhon f
      show A.stack f = (G.ch f).map (frameOf (s.binds ++ tbl.map (mkB tid)) (Tools.np ts.store))
      rw [h.stack hhon f]
      refine List.map_congr_left ?_
      intro b hb
      obtain ⟨t, u, e⟩ := btu_of_lt (hchl hb)
      simp only [frameOf, e, hold e]
      obtain ⟨z, hz⟩ := hpre
      rw [← hz, List.getElem?_append_left (by simpa [Tools.np] using h.bind.okt e)]
  · refine ⟨rfl, hold, hpre, ?_, fun hy => hy, rfl, rfl, fun hy => hy, fun _ => rfl,
      fun _ => Or.inl rfl, fun _ hy => hy, fun hs => ?_⟩
    · intro f hd hhd
      refine ⟨hd, hhd, ?_⟩
      show _ ≤ prB (s.binds ++ tbl.map (mkB tid)) (Tools.np ts.store) hd
      rw [hpr (hchl (List.mem_of_head? hhd))]
    · show s.gen.toNat ≤ (s.gen + 1).toNat
      rw [hgen hs]; omega

/-- `gotcha_wrap` on an initialised library. -/
theorem wrapCore_spec {C : Ctx} (w : World C.env C.U) {om oa quiet Q}
    (hom : OnMain C om oa quiet Q) {s : State} {G : Gh} {A : Abs} (h : Inv C s G A)
    (tbl : List UBinding) (tool : Option Name) (hh : C.hon → HonT C s tbl)
    (hpot : C.sl → pot s + 1 < 2 ^ 32)
    (hmn : C.sl → (∀ u ∈ tbl, u.name ≠ nm "main") ∨ quiet s.mainWrapped ∨
      ∃ u, tbl = [u] ∧ u.name = nm "main" ∧
        (A.touch (tool.getD (nm "[UNSPECIFIED]"))).prioOf (tool.getD (nm "[UNSPECIFIED]")) ≤
          (oa (A.touch (tool.getD (nm "[UNSPECIFIED]")))).prioOf (nm "gotcha")) :
    ∃ s' G' c, wrapCore C.env om tbl tool s = .ok (s', c) ∧
      Inv C s' G' (Abs.wrap oa tbl tool A).1 ∧ (C.hon → c = (Abs.wrap oa tbl tool A).2) ∧
      Keep C s G s' G' ∧ G'.pend = G.pend ∧ G'.dirty = G.dirty ∧ (C.sl → pot s' ≤ pot s + 1) ∧
      (∀ u us', tbl = u :: us' → u.name ≠ nm "main" → G.ch u.name = [] → s.linkMap ≠ [] →
        s'.vdso ≠ none) ∧
      (∀ b t u, btu s'.binds b = some (t, u) → btu s.binds b = some (t, u) ∨ u ∈ tbl ∨
        (Q ∧ (u.handle = C.env.hLibcMain ∨ u.handle = C.env.hMain))) ∧
      (∀ u ∈ tbl, ∃ hd, (G'.ch u.name).head? = some hd ∧
        (Abs.wrap oa tbl tool A).1.prioOf (tool.getD (nm "[UNSPECIFIED]")) ≤
          prB s'.binds (Tools.np s'.tools.store) hd) ∧
      (∀ u ∈ tbl, ∃ b t, btu s'.binds b = some (t, u)) ∧
      (C.sl → s.gen.toNat + 1 ≤ s'.gen.toNat) := by
  generalize htn : tool.getD (nm "[UNSPECIFIED]") = tn at *
  obtain ⟨ts, tid, p, H, hgc, hnp, hadd, hI, hK⟩ := setup_inv h tn tbl hh
    (fun hs => by have := hpot hs; unfold pot at this; omega)
  set s1 : State := { s with
          tools := ts
          gen := s.gen + 1
          binds := s.binds ++ tbl.map (mkB tid)
          handles := H } with hs1
  set G1 : Gh := { G with
    pend := fun c => G.pend c ∨ c ∈ List.range' s.binds.length tbl.length } with hG1
  have hgen : C.sl → (s.gen + 1).toNat = s.gen.toNat + 1 := by
    intro hs
    have := hpot hs
    unfold pot at this
    rw [BitVec.toNat_add]
    simp
    omega
  have hpot1 : C.sl → pot s1 = pot s + 1 := by
    intro hs
    have h1 : pot s1 = (s.gen + 1).toNat + if s.mainWrapped then 0 else 2 := rfl
    rw [h1, hgen hs]; unfold pot; omega
  have hbs : (List.range' s.binds.length tbl.length).map (btu s1.binds) =
      tbl.map (fun u => some (tid, u)) := by
    apply List.ext_getElem?
    intro i
    simp only [List.getElem?_map]
    by_cases hi : i < tbl.length
    · rw [List.getElem?_range' (by simpa using hi), List.getElem?_eq_getElem hi]
      simp only [Option.map_some, Nat.one_mul]
      congr 1
      show btu (s.binds ++ tbl.map (mkB tid)) _ = _
      simp [btu, List.getElem?_append_right, List.getElem?_eq_getElem hi, mkB]
    · rw [List.getElem?_eq_none (by simp; omega), List.getElem?_eq_none (by omega)]
      rfl
  have hnd : (List.range' s.binds.length tbl.length).Nodup := List.nodup_range'
  have hnb0 : NbOk none (fun _ => none) := Or.inl ⟨rfl, fun _ => rfl⟩
  have hent0 : NbEnt s1 G1 p (fun _ => none) := by intro f b e; cases e
  obtain ⟨s2, G2, nb2, m2, nf2, f1, f2, f3, f4, f5, f6, f7, f8, f9, f10, f11, f12, f13, f14, f15, -, -, -⟩ :
      ∃ s' G' nb' m' nf', processBindings C.env om tbl.length
          (List.range' s.binds.length tbl.length) s1 none 0 = .ok (s', nb', nf') ∧
      Inv C s' G' (Abs.pushAll oa tn tbl (A.touch tn)).1 ∧
      Keep C s1 G1 s' G' ∧
      G'.pend = (fun c => G1.pend c ∧ c ∉ List.range' s.binds.length tbl.length) ∧ NbOk nb' m' ∧
      NbEnt s' G' p m' ∧ (G'.dirty = fun f => G.dirty f ∨ (m' f).isSome = true) ∧
      (C.sl → pot s' ≤ pot s1) ∧
      (C.hon → nf' = 0 + (Abs.pushAll oa tn tbl (A.touch tn)).2) ∧
      (((∀ u ∈ tbl, u.name ≠ nm "main") ∨ quiet s1.mainWrapped) → Quiet s1 G1 s' G' ∧
        ((∀ f b, (fun _ => none : Name → Option BId) f = some b → (G1.ch f).head? = some b) →
          ∀ f b, m' f = some b → (G'.ch f).head? = some b)) ∧
      (∀ u us', tbl = u :: us' → u.name ≠ nm "main" → G1.ch u.name = [] → s1.linkMap ≠ [] →
        s'.vdso ≠ none) ∧
      (∀ u, tbl = [u] → u.name = nm "main" → ¬ quiet s1.mainWrapped →
        p ≤ (oa (A.touch tn)).prioOf (nm "gotcha") → m' = fun _ => none) ∧
      NewB Q C.env s1 s' ∧ (∀ u ∈ tbl, ∃ hd, (G'.ch u.name).head? = some hd ∧
        p ≤ prB s'.binds (Tools.np s'.tools.store) hd) ∧ (tbl = [] → m' = fun _ => none) ∧
      (∀ f, ((fun _ => none : Name → Option BId) f).isSome → (m' f).isSome) ∧
      (∀ f, (m' f).isSome → ((fun _ => none : Name → Option BId) f).isSome ∨
        f ∈ tbl.map UBinding.name) ∧
      (((∀ u ∈ tbl, u.name ≠ nm "main") ∨ quiet s1.mainWrapped) →
        (∀ f ∈ tbl.map UBinding.name, G1.ch f = [] → (m' f).isSome) ∧
          (∀ f, f ∉ tbl.map UBinding.name → G'.ch f = G1.ch f) ∧
          ∀ f, (G'.ch f).head? ≠ (G1.ch f).head? → (m' f).isSome) := by
    have key : ∀ n, 0 < n → _ := fun n hn => processBindings_spec w hom (n := n) hn (t := tid)
      (tool := tn) (p := p) (D := G.dirty) (nb := none) (nf := 0) (m := fun _ => none) tbl hI hnd hbs
      (fun b hb => Or.inr hb) hnp hnb0 hent0 (by funext f; simp [hG1])
      (fun hs => by rw [hpot1 hs]; exact hpot hs)
    cases tbl with
    | nil => exact key 1 (by omega)
    | cons u us => exact key _ (by simp)
  have hwrap : wrapCore C.env om tbl tool s =
      (match nb2 with
        | none => Except.ok s2
        | some t => s2.updateAll C.env t) >>= fun s' =>
          .ok (s', if nf2 > 0 then .functionNotFound else .success) := by
    unfold wrapCore
    rw [htn]
    obtain ⟨H0, hf, -⟩ := fold_handles tbl s
    rw [hf] at hadd ⊢
    simp only [bind, Except.bind, hgc]
    rw [hadd]
    simp only [f1]
    cases nb2 <;> rfl
  have hcode : C.hon → (if nf2 > 0 then RetCode.functionNotFound else .success) =
      (Abs.wrap oa tbl tool A).2 := by
    intro hx
    rw [f9 hx]
    simp only [Abs.wrap, htn, Nat.zero_add]
  have hA : (Abs.wrap oa tbl tool A).1 = (Abs.pushAll oa tn tbl (A.touch tn)).1 := by
    simp only [Abs.wrap, htn]
  have hpend : G2.pend = G.pend := by
    rw [f4]
    funext c
    apply propext
    simp only [hG1]
    constructor
    · rintro ⟨hx | hx, hy⟩
      · exact hx
      · exact absurd hx hy
    · intro hx
      refine ⟨Or.inl hx, ?_⟩
      intro hy
      have := h.bind.pendb hx
      simp only [List.mem_range'_1] at hy
      omega
  have hnewb : ∀ b t u, btu s2.binds b = some (t, u) → btu s.binds b = some (t, u) ∨ u ∈ tbl ∨
      (Q ∧ (u.handle = C.env.hLibcMain ∨ u.handle = C.env.hMain)) := by
    intro b t u hb
    rcases f13 b t u hb with hb | hb
    · by_cases hl : b < s.binds.length
      · left
        have : btu s1.binds b = btu s.binds b := btu_append_old hl
        rw [← this]; exact hb
      · right; left
        exact List.mem_of_getElem? (btu_append_new hb hl).2
    · exact Or.inr (Or.inr hb)
  have hnp2 : (Tools.np s2.tools.store)[tid]? = some (tn, p) := by
    obtain ⟨z, hz⟩ := f3.np
    rw [← hz, List.getElem?_append_left (List.getElem?_eq_some_iff.1 hnp).1]; exact hnp
  have hpp : (Abs.wrap oa tbl tool A).1.prioOf tn = p := by
    rw [hA]; exact prioOf_eq f2 hnp2
  have hpot2 : C.sl → pot s2 ≤ pot s + 1 := fun hs => by rw [← hpot1 hs]; exact f8 hs
  have hgen2 : C.sl → s.gen.toNat + 1 ≤ s2.gen.toNat := by
    intro hs
    rw [← hgen hs]; exact f3.gens hs
  have hbind : ∀ u ∈ tbl, ∃ b t, btu s2.binds b = some (t, u) := by
    intro u hu
    have : some (tid, u) ∈ (List.range' s.binds.length tbl.length).map (btu s1.binds) := by
      rw [hbs]; exact List.mem_map.2 ⟨u, hu, rfl⟩
    obtain ⟨b, -, hb⟩ := List.mem_map.1 this
    exact ⟨b, tid, f3.tu hb⟩
  have hheads := f14
  rw [← hpp] at hheads
  rcases f5 with ⟨rfl, hm0⟩ | ⟨t, rfl, ht⟩
  · -- nothing new
    refine ⟨s2, G2, _, hwrap, ?_, hcode, hK.trans f3, hpend, ?_, hpot2, f11, hnewb, hheads,
      hbind, hgen2⟩
    · rw [hA]; exact f2
    · rw [f7]; funext f; simp [hm0 f]
  · -- a pass over the link map
    have hsl1 : C.sl → ∀ f b, m2 f = some b → (G2.ch f).head? = some b := by
      intro hs
      rcases hmn hs with hx | hx | ⟨u, e1, e2, e3⟩
      · exact (f10 (Or.inl hx)).2 (by intro f b e; cases e)
      · exact (f10 (Or.inr hx)).2 (by intro f b e; cases e)
      · by_cases hq : quiet s.mainWrapped
        · exact (f10 (Or.inr hq)).2 (by intro f b e; cases e)
        · have hpr : (A.touch tn).prioOf tn = p := prioOf_eq hI hnp
          rw [f12 u e1 e2 hq (by rw [← hpr]; exact e3)]
          intro f b e; cases e
    have hS2 := f2.slots
    have hsl2 : C.sl → ∀ l ∈ s2.linkMap, C.good l → ∀ q ∈ rlOf l, ¬ G.dirty q.2 → ∀ b,
        (G2.ch q.2).head? = some b →
        (m2 q.2 = some b ∧ genAt s2.libs G2.lm l ≠ s2.gen) ∨
          bwr s2.binds b = some (s2.mem (l.addr + q.1)) := by
      intro hs l hl hgd q hq hd b hb
      cases hmq : m2 q.2 with
      | none =>
        right
        refine (hS2 hs).slot l hl hgd q hq ?_ b hb
        rw [f7]
        simp [hd, hmq]
      | some b' =>
        left
        have := hsl1 hs _ _ hmq
        rw [hb] at this
        refine ⟨by rw [this], ?_⟩
        have hquiet : Quiet s1 G1 s2 G2 := by
          rcases hmn hs with hx | hx | ⟨u, e1, e2, e3⟩
          · exact (f10 (Or.inl hx)).1
          · exact (f10 (Or.inr hx)).1
          · by_cases hq : quiet s.mainWrapped
            · exact (f10 (Or.inr hq)).1
            · have hpr : (A.touch tn).prioOf tn = p := prioOf_eq hI hnp
              rw [f12 u e1 e2 hq (by rw [← hpr]; exact e3)] at hmq
              cases hmq
        rw [genAt_ext hquiet.ext, hquiet.gen]
        have hg : (genAt s.libs G.lm l).toNat ≤ s.gen.toNat := (h.slots hs).gens l
        intro e
        have e' := congrArg BitVec.toNat e
        have e2 : (s1.gen).toNat = s.gen.toNat + 1 := hgen hs
        have e3 : (genAt s1.libs G1.lm l).toNat = (genAt s.libs G.lm l).toNat := rfl
        omega
    obtain ⟨tl, libs', lm', wr', mem', g1, g2, g3⟩ := pass_inv w (D := G.dirty) f2 ht
      (fun f b hb => (f6 f b hb).1) hsl1 hsl2
    refine ⟨_, _, _, ?_, by rw [hA]; exact g2, hcode, (hK.trans f3).trans g3, hpend, rfl, ?_, ?_,
      hnewb, hheads, hbind, hgen2⟩
    · rw [hwrap]
      simp only [g1, bind, Except.bind]
    · intro hs; exact hpot2 hs
    · intro u us' e1 e2 e3 e4
      exact f11 u us' e1 e2 e3 e4

end Gotcha
