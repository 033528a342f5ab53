import Verif.Proof.CoreOps
/-
The intercepted dlopen: objects get loaded, pending functions are looked for again, and all GOTs
are brought up to date.
-/
namespace Gotcha
open HTable
open Spec (exportsAt firstDef insertBefore Frame Abs)

theorem innermost_spec {s : State} (L : List BId) : ∀ (b : BId) (fuel : Nat),
    Seg (bnx s.binds) (some b) (b :: L) none → L.length < fuel →
    ∃ Y c, b :: L = Y ++ [c] ∧ innermost s fuel b = .ok c := by
  induction L with
  | nil =>
    intro b fuel hs hf
    obtain ⟨k, rfl⟩ := Nat.exists_eq_succ_of_ne_zero (show fuel ≠ 0 by omega)
    obtain ⟨-, n, hn, h2⟩ := hs
    simp only [Seg] at h2
    subst h2
    refine ⟨[], b, rfl, ?_⟩
    unfold bnx at hn
    cases hx : s.binds[b]? with
    | none => simp [hx] at hn
    | some x =>
      simp [hx] at hn
      simp [innermost, State.bind, hx, bind, Except.bind, hn]
  | cons c L ih =>
    intro b fuel hs hf
    obtain ⟨k, rfl⟩ := Nat.exists_eq_succ_of_ne_zero (show fuel ≠ 0 by omega)
    obtain ⟨-, n, hn, h2⟩ := hs
    have hnc : n = some c := h2.1
    subst hnc
    obtain ⟨Y, d, e1, e2⟩ := ih c k h2 (by simp at hf; omega)
    refine ⟨b :: Y, d, by rw [e1]; rfl, ?_⟩
    unfold bnx at hn
    cases hx : s.binds[b]? with
    | none => simp [hx] at hn
    | some x =>
      simp [hx] at hn
      simp [innermost, State.bind, hx, bind, Except.bind, hn, e2]

theorem Inv.setReal {C : Ctx} {s G A} (h : Inv C s G A) {r : Name → Option Addr}
    (hr : C.hon → ∀ f, r f = A.real f) : Inv C s G { A with real := r } :=
  { h with real := fun hh f => (hr hh f).trans (h.real hh f) }

/-- What looking for pending functions may change. -/
structure RB (s : State) (G : Gh) (s' : State) (G' : Gh) : Prop where
  st : ∃ tl libs vd binds nft, s' = { s with
    libTab := tl
    libs := libs
    vdso := vd
    binds := binds
    notFound := nft }
  gh : ∃ rl nf lm, G' = { G with real := rl, nf := nf, lm := lm }
  tu : btu s'.binds = btu s.binds
  ext : RecExt s.libs G.lm s'.libs G'.lm
  vd : s.vdso ≠ none → s'.vdso = s.vdso

theorem RB.refl (s : State) (G : Gh) : RB s G s G :=
  ⟨⟨_, _, _, _, _, rfl⟩, ⟨_, _, _, rfl⟩, rfl, RecExt.refl _ _, fun _ => rfl⟩

theorem RB.trans {s1 G1 s2 G2 s3 G3} (h1 : RB s1 G1 s2 G2) (h2 : RB s2 G2 s3 G3) :
    RB s1 G1 s3 G3 where
  st := by
    obtain ⟨tl, libs, vd, binds, nft, rfl⟩ := h1.st
    obtain ⟨tl', libs', vd', binds', nft', rfl⟩ := h2.st
    exact ⟨tl', libs', vd', binds', nft', rfl⟩
  gh := by
    obtain ⟨rl, nf, lm, rfl⟩ := h1.gh
    obtain ⟨rl', nf', lm', rfl⟩ := h2.gh
    exact ⟨rl', nf', lm', rfl⟩
  tu := h2.tu.trans h1.tu
  ext := h1.ext.trans h2.ext
  vd := fun h => by
    have e := h1.vd h
    rw [h2.vd (by rw [e]; exact h), e]

theorem RB.keep {C : Ctx} {s G s' G'} (h : RB s G s' G') : Keep C s G s' G' := by
  obtain ⟨⟨tl, libs, vd, binds, nft, rfl⟩, ⟨rl, nf, lm, rfl⟩, htu, hext, hvd⟩ := h
  replace htu : btu binds = btu s.binds := htu
  refine ⟨rfl, fun {b y} hy => ?_, List.prefix_refl _, fun {f hd} hy => ⟨hd, hy, ?_⟩, fun hy => hy, rfl, rfl,
    fun hy => hy, hvd, fun _ => Or.inl rfl, fun _ hy => hy, fun _ => Nat.le_refl _⟩
  · show btu binds b = some y; rw [htu]; exact hy
  · show prB s.binds (Tools.np s.tools.store) hd ≤ prB binds (Tools.np s.tools.store) hd
    simp [prB, htu]

/-- The invariant when only the wrappee of the last binding of one chain may have changed. -/
theorem inv_rebind {C : Ctx} {s : State} {G : Gh} {A : Abs} {k : Name} {c : BId} {Y : List BId}
    {ra : Option Addr} {tl : HTable Addr Nat} {libs' : List LibRec} {lm' : Lib → Option Nat}
    {vd : Option (Option Addr)} {binds' : List IBinding} {nft : HTable Name BId}
    {nf' : Name → Option BId}
    (h : Inv C s G A) (hch : G.ch k = Y ++ [c])
    (htu : btu binds' = btu s.binds) (hnx : bnx binds' = bnx s.binds)
    (hlen : binds'.length = s.binds.length)
    (hwp : C.hon → bwp binds' = upd (bwp s.binds) c (some ra))
    (hL : LibInv C.U G.seen tl libs' lm') (hext : RecExt s.libs G.lm libs' lm')
    (hvd : VdOk C.env C.v vd s.linkMap)
    (hnf : TabMap strhash nft nf') (hnfm : ∀ {f b}, nf' f = some b → b ∈ G.ch f)
    (hnfr : C.hon → ∀ f, (nf' f).isSome ↔ (G.ch f ≠ [] ∧ upd G.real k ra f = none)) :
    Inv C { s with
        libTab := tl
        libs := libs'
        vdso := vd
        binds := binds'
        notFound := nft }
      { G with real := upd G.real k ra, nf := nf', lm := lm' }
      { A with real := upd A.real k ra } where
  tools := h.tools
  bind := by
    have hI := h.bind
    refine ⟨fun f => ?_, fun {f c} hc => ?_, fun {c t u} hc => ?_, fun {c t u} hc => ?_,
      fun {c} hc => ?_, fun {c} hc => ?_, fun {c f} hc => ?_⟩
    · show Seg (bnx binds') _ _ _
      rw [hnx]; exact hI.chain f
    · show ∃ t u, btu binds' c = some (t, u) ∧ u.name = f
      rw [htu]; exact hI.named hc
    · replace hc : btu binds' c = some (t, u) := hc
      rw [htu] at hc; exact hI.okt hc
    · replace hc : btu binds' c = some (t, u) := hc
      rw [htu] at hc
      show ∃ b', s.handles u.handle = some b' ∧ b' < binds'.length
      rw [hlen]; exact hI.okh hc
    · show c < binds'.length
      rw [hlen]; exact hI.pendb hc
    · show bnx binds' c = some none
      rw [hnx]; exact hI.pendn hc
    · exact hI.pendc hc
  fn := h.fn
  nf := hnf
  nfm := hnfm
  lib := hL
  wr := h.wr.ext hext
  objs := h.objs
  nd := h.nd
  placed := h.placed
  vd := hvd
  hon := by
    intro hh
    have hH := h.hon hh
    have hbwr : bwr binds' = bwr s.binds := by funext x; simp [bwr, htu]
    refine ⟨fun {b t u} hb => ?_, fun {b t u} hb => ?_, fun f => ?_, fun {b} hb => ?_⟩
    · exact hH.own (by rw [← htu]; exact hb)
    · exact hH.prog (by rw [← htu]; exact hb)
    · show WChain (bwr binds') (bwp binds') (G.ch f) (upd G.real k ra f)
      rw [hbwr, hwp hh]
      have hw := hH.wch f
      by_cases e : f = k
      · subst e
        rw [upd_self]
        have hnd := (h.bind.chain f).nodup
        rw [hch] at hw hnd ⊢
        exact WChain.setLast hnd hw
      · rw [upd_ne _ _ e]
        refine WChain.congr (fun _ _ => rfl) ?_ hw
        intro b hb
        refine upd_ne _ _ ?_
        intro e'
        subst e'
        exact e (h.bind.disj hb (by rw [hch]; simp))
    · show bwp binds' b = some none
      rw [hwp hh, upd_ne]
      · exact hH.pend hb
      · intro e
        subst e
        exact h.bind.pendc hb (f := k) (by rw [hch]; simp)
  nfr := hnfr
  fresh := by
    intro hh hm b t u hb
    replace hb : btu binds' b = some (t, u) := hb
    rw [htu] at hb
    exact h.fresh hh hm hb
  onch := by
    intro hh b hb
    replace hb : b < binds'.length := hb
    rw [hlen] at hb
    exact h.onch hh b hb
  slots := by
    intro hs
    have hS := h.slots hs
    refine ⟨hS.all, hS.cons, ?_, ?_⟩
    · intro l
      show (genAt libs' lm' l).toNat ≤ s.gen.toNat
      rw [genAt_ext hext]; exact hS.gens l
    · intro l hl hg p hp hd b hb
      have : bwr binds' = bwr s.binds := by funext x; simp [bwr, htu]
      show bwr binds' b = _
      rw [this]
      exact hS.slot l hl hg p hp hd b hb
  prio := h.prio
  stack := by
    intro hh f
    have hfr : frameOf binds' (Tools.np s.tools.store) =
        frameOf s.binds (Tools.np s.tools.store) := by
      funext x; simp only [frameOf, htu]
    show A.stack f = (G.ch f).map (frameOf binds' (Tools.np s.tools.store))
    rw [hfr]; exact h.stack hh f
  real := by
    intro hh f
    show upd A.real k ra f = upd G.real k ra f
    by_cases e : f = k
    · rw [e, upd_self, upd_self]
    · rw [upd_ne _ _ e, upd_ne _ _ e]; exact h.real hh f
  libs := h.libs
  vdso := h.vdso
  mainW := h.mainW
  init := h.init
  init' := h.init'

/-- One pending function is looked for again. -/
theorem perBinding_spec {C : Ctx} (w : World C.env C.U) {s G A} (h : Inv C s G A)
    {k : Name} {b : BId} (hk : G.nf k = some b) :
    ∃ s' G', perBinding C.env (some k) (some b) s = .ok (s', false) ∧
      Inv C s' G' { A with real := upd A.real k (A.resolve k) } ∧ RB s G s' G' ∧
      ((s'.notFound = s.notFound ∧ G'.nf = G.nf) ∨
        (∃ e, s.notFound.removefrom (strhash k) (fun x => x = k) = .ok (s'.notFound, e) ∧
          G'.nf = upd G.nf k none)) := by
  have hb := h.nfm hk
  obtain ⟨X, L, hX⟩ := List.append_of_mem hb
  have hseg := h.bind.chain k
  have hlen := chain_len h.bind k
  rw [hX] at hseg hlen
  obtain ⟨q, -, hq⟩ := Seg.append.1 hseg
  have hqb : q = some b := hq.1
  subst hqb
  obtain ⟨Y, c, hY, hin⟩ := innermost_spec L b (s.binds.length + 1) hq
    (by simp at hlen; omega)
  have hch : G.ch k = (X ++ Y) ++ [c] := by rw [hX, hY]; simp
  have hc : c ∈ G.ch k := by rw [hch]; simp
  obtain ⟨t, u, hcu, hun⟩ := h.bind.named hc
  obtain ⟨x, hx, -, hxu⟩ := btu_get hcu
  obtain ⟨tl, libs', lm', vd, g1, g2, g3, -, g5, g6⟩ := prepareLoop_spec w (seen := G.seen)
    k u.handle s.linkMap h.objs (v := C.v) h.lib h.vd (h.bind.okh hcu)
  have hprep : s.prepareSymbol C.env c = prepareLoop C.env k u.handle s.linkMap s := by
    simp only [State.prepareSymbol, State.bind, hx, bind, Except.bind, hxu, hun]
  have hres : A.resolve k = firstDef C.v s.linkMap k := by
    simp only [Abs.resolve, h.vdso, h.libs]
  rw [hres]
  have hgk : C.hon → G.real k = none := fun hh => ((h.nfr hh k).1 (by rw [hk]; rfl)).2
  rcases g6 with ⟨a, d, hfd, hd, hdl, hpe⟩ | ⟨hfd, hpe⟩
  · obtain ⟨nft, hrm, hnft⟩ := removefrom_tab h.nf (k := k) (eq := fun x => decide (x = k)) name_eq
    rw [hfd]
    refine ⟨_, _, ?_, inv_rebind h (Y := X ++ Y) (c := c) (ra := some a)
      (binds' := s.binds.modify d (fun x => { x with wrappee := some a }))
      hch btu_modW bnx_modW length_modW ?_ g1 g2 g3 hnft ?_ ?_, ?_, Or.inr ⟨_, hrm, rfl⟩⟩
    · simp only [perBinding, hin, bind, Except.bind, hprep, hpe, hrm, if_true]
    · intro hh
      have := (h.hon hh).own hcu
      rw [hd] at this
      cases this
      exact bwp_modW hdl
    · intro f b' hb'
      by_cases e : f = k
      · rw [e, upd_self] at hb'; cases hb'
      · rw [upd_ne _ _ e] at hb'; exact h.nfm hb'
    · intro hh f
      by_cases e : f = k
      · simp [e]
      · rw [upd_ne _ _ e, upd_ne _ _ e]; exact h.nfr hh f
    · exact ⟨⟨_, _, _, _, _, rfl⟩, ⟨_, _, _, rfl⟩, btu_modW, g2, g5⟩
  · rw [hfd]
    refine ⟨_, _, ?_, inv_rebind h (Y := X ++ Y) (c := c) (ra := none) (binds' := s.binds)
      hch rfl rfl rfl ?_ g1 g2 g3 h.nf h.nfm ?_, ?_, Or.inl ⟨rfl, rfl⟩⟩
    · simp only [perBinding, hin, bind, Except.bind, hprep, hpe, Bool.false_eq_true, if_false]
    · intro hh
      have hw := (h.hon hh).wch k
      rw [hch, hgk hh] at hw
      have := WChain.last hw
      rw [← this]
      funext i
      by_cases e : i = c
      · rw [e, upd_self]
      · rw [upd_ne _ _ e]
    · intro hh f
      have := h.nfr hh f
      rw [this]
      by_cases e : f = k
      · rw [e, upd_self, hgk hh]
      · rw [upd_ne _ _ e]
    · exact ⟨⟨_, _, _, _, _, rfl⟩, ⟨_, _, _, rfl⟩, rfl, g2, g5⟩

/-- The abstract state while the pending functions `its` are still to be looked for. -/
def absIts (A : Abs) (libs : List Lib) (its : List (Name × BId)) : Abs :=
  { A with
    libs := A.libs ++ libs
    real := fun f => if f ∈ its.map (·.1) then A.real f else (A.dlopen libs).real f }

theorem foreach_pending {C : Ctx} (w : World C.env C.U) {s G} {A : Abs} {libs : List Lib}
    (h : Inv C s G { A with libs := A.libs ++ libs }) :
    ∃ s' G', foreachEntry State.notFound (perBinding C.env) s.notFound.slots.length
        s.notFound.head s = .ok s' ∧
      Inv C s' G' (A.dlopen libs) ∧ RB s G s' G' := by
  have hnfr : C.hon → ∀ f, (G.nf f).isSome ↔ (A.stack f ≠ [] ∧ A.real f = none) := by
    intro hh f
    rw [h.nfr hh f, ← h.real hh f, show A.stack f = _ from h.stack hh f]
    simp
  obtain ⟨s', m', h1, h2, G', h3, h4, -⟩ := foreach_tab (σ := State) (hash := strhash) State.notFound
    (perBinding C.env) (fun k x => decide (x = k)) (by simp)
    (fun s' m its => ∃ G', Inv C s' G' (absIts A libs its) ∧ RB s G s' G' ∧ G'.nf = m ∧
      (its.map (·.1)).Nodup ∧ (C.hon → ∀ k ∈ its.map (·.1), A.stack k ≠ [] ∧ A.real k = none))
    (by
      rintro s1 m k d rest - ⟨G1, g1, g2, g3, g4, g5⟩ hk
      obtain ⟨s2, G2, e1, e2, e3, e4⟩ := perBinding_spec w g1 (k := k) (b := d) (by rw [g3]; exact hk)
      have hres : Inv C s2 G2 (absIts A libs rest) := by
        have hx : absIts A libs rest = { ({ absIts A libs ((k, d) :: rest) with
            real := upd (absIts A libs ((k, d) :: rest)).real k
              ((absIts A libs ((k, d) :: rest)).resolve k) } : Abs) with
              real := (absIts A libs rest).real } := rfl
        rw [hx]
        refine e2.setReal ?_
        intro hh f
        simp only [List.map_cons, List.nodup_cons] at g4
        by_cases e : f = k
        · subst e
          have := g5 hh f (by simp)
          simp only [upd_self, absIts, if_neg g4.1, Abs.dlopen, if_pos this]
          rfl
        · show (absIts A libs rest).real f =
            upd (absIts A libs ((k, d) :: rest)).real k _ f
          rw [upd_ne _ _ e]
          simp only [absIts, List.map_cons, List.mem_cons, e, false_or]
      simp only [List.map_cons, List.nodup_cons] at g4
      have hrest : C.hon → ∀ k ∈ rest.map (·.1), A.stack k ≠ [] ∧ A.real k = none :=
        fun hh k' hk' => g5 hh k' (List.mem_cons_of_mem _ hk')
      refine ⟨s2, e1, ?_⟩
      rcases e4 with ⟨q1, q2⟩ | ⟨e, q1, q2⟩
      · exact Or.inl ⟨q1, G2, hres, g2.trans e3, q2.trans g3, g4.2, hrest⟩
      · exact Or.inr ⟨e, q1, G2, hres, g2.trans e3, by rw [q2, g3], g4.2, hrest⟩)
    h.nf
    (by
      intro its hnd hits
      have hmem : ∀ k, k ∈ its.map (·.1) ↔ (G.nf k).isSome := by
        intro k
        constructor
        · intro hk
          obtain ⟨⟨k', d⟩, hk', rfl⟩ := List.mem_map.1 hk
          rw [(hits k' d).1 hk']; rfl
        · intro hk
          obtain ⟨d, hd⟩ := Option.isSome_iff_exists.1 hk
          exact List.mem_map.2 ⟨(k, d), (hits k d).2 hd, rfl⟩
      refine ⟨G, ?_, RB.refl _ _, rfl, hnd, ?_⟩
      · have hx : absIts A libs its = { ({ A with libs := A.libs ++ libs } : Abs) with
            real := (absIts A libs its).real } := rfl
        rw [hx]
        refine h.setReal ?_
        intro hh f
        simp only [absIts]
        split
        · rfl
        · rename_i hf
          rw [hmem, hnfr hh f] at hf
          simp only [Abs.dlopen, if_neg hf]
      · intro hh k hk
        rw [hmem] at hk
        exact (hnfr hh k).1 hk)
  refine ⟨s', G', h1, ?_, h4⟩
  have : absIts A libs [] = A.dlopen libs := by
    simp [absIts, Abs.dlopen]
  rw [← this]; exact h3

/-- An intercepted dlopen. -/
theorem dlopen_post {C : Ctx} (w : World C.env C.U) {seen n s G A} (h : Post C seen n s G A)
    {ld : Load} (hld : LoadOk C seen s.linkMap ld)
    (hw : ∃ a, s.getWrappee C.env.hDlopen = .ok a) :
    ∃ s' G', dlopenWrapper C.env ld s = .ok s' ∧
      Post C (seenWith seen ld.libs) n s' G' (A.dlopen ld.libs) ∧
      Keep C (s.load ld) { G with seen := seenWith G.seen ld.libs, dirty := fun _ => True }
        s' G' := by
  have hs := h.seen
  have hI := load_inv h.inv (by rw [hs]; exact hld) h.vd
  obtain ⟨s1, G1, e1, e2, e3⟩ := foreach_pending w hI
  have hk1 := e3.keep (C := C)
  obtain ⟨⟨tl, libs, vd, binds, nft, rfl⟩, ⟨rl, nf, lm, rfl⟩, htu, hext, hvd⟩ := e3
  obtain ⟨tl', libs', lm', wr', mem', f1, f2, f3⟩ := pass_inv w e2 (t := s.funTab)
    (m := fun f => (G.ch f).head?) (D := fun _ => False) h.inv.fn
    (fun f b hb => List.mem_of_mem_head? (by simp only [Option.mem_def]; exact hb))
    (fun _ f b hb => hb)
    (by
      intro hsl l hl hgd p hp _ b hb
      replace hl : l ∈ s.linkMap ++ ld.libs := hl
      have htu' : btu binds = btu s.binds := htu
      have hbwr : bwr binds = bwr s.binds := by funext x; simp [bwr, htu']
      rcases List.mem_append.1 hl with hl | hl
      · right
        show bwr binds b = some ((ld.mem (l.addr + p.1)).getD (s.mem (l.addr + p.1)))
        rw [hbwr, hld.keep hsl l hl hgd p hp]
        exact (h.inv.slots hsl).slot l hl hgd p hp (h.dirty _) b hb
      · left
        refine ⟨hb, ?_⟩
        show genAt libs lm l ≠ s.gen
        have hg : genAt libs lm l = genAt s.libs G.lm l := genAt_ext hext l
        rw [hg]
        have hnone : recAt s.libs G.lm l = none := by
          unfold recAt
          cases hx : G.lm l with
          | none => rfl
          | some r => exact absurd hgd ((hld.again l hl (by rw [← hs]; exact h.inv.lib.seen hx)).1 hsl)
        intro hc
        have := h.gen hsl
        rw [← hc] at this
        simp [genAt, hnone] at this)
  obtain ⟨a, ha⟩ := hw
  refine ⟨_, _, ?_, ⟨f2, h.pend, fun _ hx => hx, ?_, ?_, h.pot, h.gen, ?_⟩, hk1.trans f3⟩
  · simp only [dlopenWrapper, ha, bind, Except.bind, State.afterDlopen, e1]
    exact f1
  · show seenWith G.seen ld.libs = _; rw [hs]
  · show vd = some C.v
    have := hvd (by show s.vdso ≠ none; rw [h.vd]; simp)
    exact this.trans h.vd
  · intro u hu
    obtain ⟨b, t, hb⟩ := h.dlb u hu
    exact ⟨b, t, by show btu binds b = _; exact (congrFun htu b).trans hb⟩

end Gotcha
