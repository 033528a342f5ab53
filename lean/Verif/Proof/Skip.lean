import Verif.Proof.Effects
/-
Which libraries a pass over the link map skips: those whose record carries the current generation.
-/
namespace Gotcha
open HTable
open Spec (exportsAt firstDef insertBefore Frame Abs)

/-- The generation in the record of an object, found the way GOTCHA finds it (0 when there is no
record). -/
def genOf (s : State) (l : Lib) : BitVec 32 :=
  match s.libTab.lookup (linkMapHash l) (linkMapEq l.lm) with
  | .ok (some r) => ((s.libs[r]?).getD ⟨0, false, 0⟩).gen
  | _ => 0

/-- The object has a dynamic section. -/
def HasRel (l : Lib) : Prop := ∃ rl, Elf.relocs l.img = .ok (some rl)

theorem hasRel_of_mem {l : Lib} {q} (h : q ∈ rlOf l) : HasRel l := by
  unfold rlOf at h
  split at h
  · rename_i r e; exact ⟨r, e⟩
  · cases h

theorem genOf_eq {env : Env} {U : Lib → Prop} (w : World env U) {seen lm} {s : State}
    (h : LibInv U seen s.libTab s.libs lm) {l : Lib} (hl : U l) :
    genOf s l = genAt s.libs lm l := by
  have := lookup_lib w h.tab hl
  unfold genOf genAt recAt
  rw [this]
  cases lm l <;> rfl

theorem procList_stale {flt : Filter} {g : BitVec 32} {R : Lib → Option LibRec} {l : Lib} :
    ∀ {ls : List Lib}, l ∈ procList flt g R ls → ((R l).getD ⟨0, false, 0⟩).gen ≠ g := by
  intro ls
  induction ls with
  | nil => intro h; cases h
  | cons k ls ih =>
    intro h
    rw [procList] at h
    split at h
    · rename_i hp
      rcases List.mem_cons.1 h with rfl | h
      · unfold processed at hp
        simp only [Bool.and_eq_true, Bool.not_eq_true', decide_eq_false_iff_not] at hp
        exact hp.2
      · exact ih h
    · exact ih h

/-- A pass over the link map with a table `m` of bindings: what it writes and which libraries are up
to date afterwards. -/
theorem pass_facts {C : Ctx} (w : World C.env C.U) {s : State} {G : Gh} {A : Abs}
    {t : HTable Name BId} {m} (h : Inv C s G A) (ht : TabMap strhash t m)
    (hm : ∀ f b, m f = some b → b ∈ G.ch f) :
    ∃ tl libs' lm' wr' mem',
      s.updateAll C.env t =
        .ok { s with libTab := tl, libs := libs', wr := wr', mem := mem' } ∧
      LibInv C.U G.seen tl libs' lm' ∧
      (∀ a, genAt s.libs G.lm a = s.gen → genAt libs' lm' a = s.gen) ∧
      (∀ l, Accepted s.filter s.linkMap l → HasRel l → genAt libs' lm' l = s.gen) ∧
      (∀ a, mem' a = s.mem a ∨ ∃ l ∈ s.linkMap, genAt s.libs G.lm l ≠ s.gen ∧
        ∃ q ∈ rlOf l, a = l.addr + q.1 ∧ (m q.2).isSome ∧ Accepted s.filter s.linkMap l) := by
  have hbd : ∀ f b, m f = some b → b < s.binds.length := by
    intro f b hb
    obtain ⟨t, u, e, -⟩ := h.bind.named (hm f b hb)
    exact btu_lt e
  obtain ⟨tl, libs', lm', wr', mem', hL, hW, hwr, hrs, hmk, hmem, he⟩ :=
    updateLibs_spec w ht s.linkMap h.nd h.lib h.wr h.objs h.placed hbd (fun l hl => hl)
  have hmem' : mem' = passMem (wOf s.binds m) (procList s.filter s.gen (recAt s.libs G.lm)
      s.linkMap) s.mem := hmem
  refine ⟨tl, libs', lm', wr', mem', he, hL, ?_, ?_, ?_⟩
  · intro a ha
    unfold genAt at ha ⊢
    rcases hrs a with e | ⟨x, e, e' | e'⟩
    · rw [e]; exact ha
    · rw [e]; exact e'
    · rw [e]; exact e'.trans ha
  · rintro l ⟨X, Y, e, hacc⟩ hrel
    exact hmk X l Y e hacc hrel
  · intro a
    rcases passMem_or (wOf s.binds m) (procList s.filter s.gen (recAt s.libs G.lm)
        s.linkMap) s.mem a with e | ⟨l', hl', q, hq, e, hwq⟩
    · left; rw [hmem']; exact e
    · right
      obtain ⟨X, Y, e1, -⟩ := procList_mem hl'
      refine ⟨l', (by rw [e1]; simp), procList_stale hl', q, hq, e, ?_⟩
      unfold wOf at hwq
      cases hmq : m q.2 with
      | none => rw [hmq] at hwq; cases hwq
      | some b => exact ⟨rfl, procList_mem hl'⟩

/-- `gotcha_wrap` of a table without "main" (or when "main" is settled): writes go to slots for
functions of the table only, and if one of these was never wrapped before then all accepted libraries
are up to date afterwards. -/
theorem wrap_facts {C : Ctx} (w : World C.env C.U) {om oa quiet Q}
    (hom : OnMain C om oa quiet Q) {s : State} {G : Gh} {A : Abs} (h : Inv C s G A)
    (hnh : ¬ C.hon) (hns : ¬ C.sl) (tbl : List UBinding) (tool : Option Name)
    (hq : (∀ u ∈ tbl, u.name ≠ nm "main") ∨ quiet s.mainWrapped) :
    ∃ s' c lm', wrapCore C.env om tbl tool s = .ok (s', c) ∧
      LibInv C.U G.seen s'.libTab s'.libs lm' ∧
      (∀ a, s'.mem a = s.mem a ∨ ∃ l ∈ s.linkMap, ∃ q ∈ rlOf l, a = l.addr + q.1 ∧
        q.2 ∈ tbl.map UBinding.name) ∧
      ((∃ f ∈ tbl.map UBinding.name, G.ch f = []) → ∀ l, Accepted s.filter s.linkMap l →
        HasRel l → genAt s'.libs lm' l = s'.gen) ∧
      (∀ f, f ∉ tbl.map UBinding.name → nameLookup s'.funTab f = nameLookup s.funTab f) ∧
      s'.mainWrapped = s.mainWrapped ∧
      (∀ a, s'.mem a = s.mem a ∨ ∃ l ∈ s.linkMap, genAt s.libs G.lm l ≠ s.gen + 1 ∧
        ∃ q ∈ rlOf l, a = l.addr + q.1) := by
  generalize htn : tool.getD (nm "[UNSPECIFIED]") = tn at *
  obtain ⟨ts, tid, p, H, hgc, hnp, hadd, hI, hK⟩ := setup_inv h tn tbl (fun hx => absurd hx hnh)
    (fun hx => absurd hx hns)
  set s1 : State := { s with
          tools := ts
          gen := s.gen + 1
          binds := s.binds ++ tbl.map (mkB tid)
          handles := H } with hs1
  set G1 : Gh := { G with
    pend := fun c => G.pend c ∨ c ∈ List.range' s.binds.length tbl.length } with hG1
  have hbs : (List.range' s.binds.length tbl.length).map (btu s1.binds) =
      tbl.map (fun u => some (tid, u)) := by
    apply List.ext_getElem?
    intro i
    simp only [List.getElem?_map]
    by_cases hi : i < tbl.length
    · rw [List.getElem?_range' (by simpa using hi), List.getElem?_eq_getElem hi]
      simp only [Option.map_some, Nat.one_mul]
      congr 1
      show btu (s.binds ++ tbl.map (mkB tid)) _ = _
      simp [btu, List.getElem?_append_right, List.getElem?_eq_getElem hi, mkB]
    · rw [List.getElem?_eq_none (by simp; omega), List.getElem?_eq_none (by omega)]
      rfl
  have hnb0 : NbOk none (fun _ => none) := Or.inl ⟨rfl, fun _ => rfl⟩
  have hent0 : NbEnt s1 G1 p (fun _ => none) := by intro f b e; cases e
  obtain ⟨n, hn, hpn⟩ : ∃ n, 0 < n ∧ processBindings C.env om tbl.length
      (List.range' s.binds.length tbl.length) s1 none 0 = processBindings C.env om n
      (List.range' s.binds.length tbl.length) s1 none 0 := by
    cases tbl with
    | nil => exact ⟨1, by omega, rfl⟩
    | cons u us => exact ⟨_, by simp, rfl⟩
  obtain ⟨s2, G2, nb2, m2, nf2, f1, f2, f3, f4, f5, f6, f7, f8, f9, f10, f11, f12, f13, f14, f15,
      f16, f17, f18⟩ :=
    processBindings_spec w hom (n := n) hn (t := tid)
      (tool := tn) (p := p) (D := G.dirty) (nb := none) (nf := 0) (m := fun _ => none) tbl hI
      List.nodup_range' hbs (fun b hb => Or.inr hb) hnp hnb0 hent0 (by funext f; simp [hG1])
      (fun hs => absurd hs hns)
  rw [← hpn] at f1
  have hwrap : wrapCore C.env om tbl tool s =
      (match nb2 with
        | none => Except.ok s2
        | some t => s2.updateAll C.env t) >>= fun s' =>
          .ok (s', if nf2 > 0 then .functionNotFound else .success) := by
    unfold wrapCore
    rw [htn]
    obtain ⟨H0, hf, -⟩ := fold_handles tbl s
    rw [hf] at hadd ⊢
    simp only [bind, Except.bind, hgc]
    rw [hadd]
    simp only [f1]
    cases nb2 <;> rfl
  obtain ⟨hQ, -⟩ := f10 hq
  have hmem2 : s2.mem = s.mem := hQ.mem
  have hseen2 : G2.seen = G.seen := f3.seen
  have hlm2 : s2.linkMap = s.linkMap := f3.linkMap
  have hfl2 : s2.filter = s.filter := f3.filter
  have hfun : ∀ f, f ∉ tbl.map UBinding.name → nameLookup s2.funTab f = nameLookup s.funTab f := by
    intro f hf
    have e1 := lookup_tab f2.fn (k := f) (eq := fun k => k = f) name_eq
    have e2 := lookup_tab h.fn (k := f) (eq := fun k => k = f) name_eq
    unfold nameLookup
    rw [e1, e2, (f18 hq).2.1 f hf]
  rcases f5 with ⟨rfl, hm0⟩ | ⟨t, rfl, ht⟩
  · refine ⟨s2, _, G2.lm, hwrap, (by rw [← hseen2]; exact f2.lib),
      fun a => Or.inl (by rw [hmem2]), ?_, hfun, hQ.mainW, fun a => Or.inl (by rw [hmem2])⟩
    rintro ⟨f, hf, hnil⟩
    have := (f18 hq).1 f hf hnil
    rw [hm0 f] at this
    cases this
  · obtain ⟨tl, libs', lm', wr', mem', g1, g2, g3, g4, g5⟩ :=
      pass_facts w f2 ht (fun f b hb => (f6 f b hb).1)
    refine ⟨{ s2 with libTab := tl, libs := libs', wr := wr', mem := mem' },
      if nf2 > 0 then .functionNotFound else .success, lm', ?_, ?_, ?_, ?_, hfun, hQ.mainW, ?_⟩
    · rw [hwrap]
      simp only [g1, bind, Except.bind]
    · rw [← hseen2]; exact g2
    · intro a
      rcases g5 a with e | ⟨l, hl, -, q, hq', e, hmq, -⟩
      · left; show mem' a = _; rw [e, hmem2]
      · right
        refine ⟨l, by rw [← hlm2]; exact hl, q, hq', e, ?_⟩
        rcases f17 _ hmq with hx | hx
        · cases hx
        · exact hx
    · intro _ l hacc hrel
      exact g4 l (by rw [hfl2, hlm2]; exact hacc) hrel
    · intro a
      rcases g5 a with e | ⟨l, hl, hst, q, hq', e, -⟩
      · left; show mem' a = _; rw [e, hmem2]
      · right
        refine ⟨l, by rw [← hlm2]; exact hl, ?_, q, hq', e⟩
        rw [genAt_ext hQ.ext, hQ.gen] at hst
        exact hst

/-- An intercepted dlopen writes nothing into libraries that are up to date, and they stay so. -/
theorem dlopen_facts {C : Ctx} (w : World C.env C.U) {seen n s G A} (h : Post C seen n s G A)
    {ld : Load} (hld : LoadOk C seen s.linkMap ld)
    (hw : ∃ a, s.getWrappee C.env.hDlopen = .ok a) :
    ∃ s' lm', dlopenWrapper C.env ld s = .ok s' ∧ (s'.gen = s.gen ∧ s'.funTab = s.funTab ∧
        s'.mainWrapped = s.mainWrapped) ∧
      LibInv C.U (seenWith seen ld.libs) s'.libTab s'.libs lm' ∧
      (∀ a, genAt s.libs G.lm a = s.gen → genAt s'.libs lm' a = s.gen) ∧
      (∀ a, s'.mem a = (ld.mem a).getD (s.mem a) ∨ ∃ l, C.U l ∧ genAt s.libs G.lm l ≠ s.gen ∧
        ∃ q ∈ rlOf l, a = l.addr + q.1) ∧
      (∀ l, Accepted s.filter (s.linkMap ++ ld.libs) l → HasRel l →
        genAt s'.libs lm' l = s'.gen) := by
  have hs := h.seen
  have hI := load_inv h.inv (by rw [hs]; exact hld) h.vd
  obtain ⟨s1, G1, e1, e2, e3⟩ := foreach_pending w hI
  obtain ⟨⟨tl, libs, vd, binds, nft, rfl⟩, ⟨rl, nf, lm, rfl⟩, htu, hext, hvd⟩ := e3
  obtain ⟨tl', libs', lm', wr', mem', g1, g2, g3, g4, g5⟩ :=
    pass_facts w e2 (t := s.funTab) (m := fun f => (G.ch f).head?) h.inv.fn
      (fun f b hb => List.mem_of_mem_head? (by simp only [Option.mem_def]; exact hb))
  obtain ⟨a, ha⟩ := hw
  have hg : ∀ a, genAt libs lm a = genAt s.libs G.lm a := fun a => genAt_ext hext a
  refine ⟨{ s.load ld with
    libTab := tl'
    libs := libs'
    vdso := vd
    binds := binds
    notFound := nft
    wr := wr'
    mem := mem' }, lm', ?_, ?_, ?_, ?_, ?_, g4⟩
  · simp only [dlopenWrapper, ha, bind, Except.bind, State.afterDlopen, e1]
    exact g1
  · exact ⟨rfl, rfl, rfl⟩
  · rw [← hs]; exact g2
  · intro a ha
    exact g3 a (by show genAt libs lm a = s.gen; rw [hg]; exact ha)
  · intro a
    rcases g5 a with e | ⟨l, hl, hne, q, hq, e, -⟩
    · left; exact e
    · right
      refine ⟨l, (e2.objs l hl).1, ?_, q, hq, e⟩
      intro hc
      exact hne (by show genAt libs lm l = s.gen; rw [hg]; exact hc)

end Gotcha

namespace Gotcha.Spec
open Gotcha HTable

theorem lets_accepts {env : Env} {U : Lib → Prop} (w : World env U) {flt : Filter} {l : Lib} {n : Bool}
    (hl : U l) (h : lets flt l n) : flt.accepts l n = .ok true := by
  cases flt with
  | all => rfl
  | byName f =>
    cases f with
    | none => exact h.elim
    | some f =>
      obtain ⟨m, hn, hf⟩ := h
      simp only [Filter.accepts, hn]
      rw [(occursIn_iff f m).2 hf]
  | last =>
    have : n = false := h
    simp [Filter.accepts, this]
  | custom f =>
    have : f l n = true := h
    simp [Filter.accepts, this]

theorem admitted_accepted {env : Env} {U : Lib → Prop} (w : World env U) {flt libs l}
    (hU : ∀ l ∈ libs, U l) (h : Admitted flt libs l) : Accepted flt libs l := by
  obtain ⟨X, Y, e, h⟩ := h
  exact ⟨X, Y, e, lets_accepts w (hU l (by rw [e]; simp)) h⟩

/-- An API call initialises GOTCHA. -/
theorem run_inited {p : Process} (ok : p.Ok) {strict : Prop} {ops : List Op}
    (h : Events p strict ops) {s os} (hr : run p.env ops p.start = .ok (s, os)) :
    s.inited = ops.any isApi := by
  rw [← top_inited (events_run ok h hr), abs_start, (run_prio p.env p.libs ops).2]

theorem run_post {p : Process} (ok : p.Ok) {strict : Prop} {ops : List Op}
    (h : Events p strict ops) {s os} (hr : run p.env ops p.start = .ok (s, os))
    (hi : ops.any isApi = true) : ∃ v G, Post ((p.ctx False strict).at v) (seenRun p.seen ops)
      (3 + ops.length) s G (Abs.run p.env ops p.abs).1 := by
  rcases events_run ok h hr with ht | ht
  · have := run_inited ok h hr
    rw [hi, ht.st] at this; cases this
  · exact ht

/-- The event is a call of gotcha_wrap. -/
def isWrap : Op → Bool
  | .wrap _ _ => true
  | _ => false

/-- Events other than gotcha_wrap leave a library alone that is up to date, and it stays so. -/
theorem step_frozen {p : Process} (ok : p.Ok) {ops : List Op} {op : Op}
    (h : Events p False (ops ++ [op])) {s os s' o} (hr : run p.env ops p.start = .ok (s, os))
    (hi : ops.any isApi = true) (hs : stepOp p.env op s = .ok (s', o)) (hop : isWrap op = false)
    {l : Lib} (hl : p.U l) (hg : genOf s l = s.gen) :
    genOf s' l = s'.gen ∧ ∀ a, (∀ l', p.U l' → l' ≠ l → ∀ q ∈ rlOf l', a ≠ l'.addr + q.1) →
      s'.mem a = loaderWord op a (s.mem a) := by
  obtain ⟨v, G, hP⟩ := run_post ok h.prefix hr hi
  have hin : s.inited = true := hP.inv.init
  have hL := genOf_eq (env := p.env) (U := p.U) ok.world hP.inv.lib hl
  cases op with
  | wrap tbl tool => cases hop
  | setPriority t v =>
    simp only [stepOp, gotchaSetPriority, gotchaInit, hin, if_true, bind, Except.bind] at hs
    cases hx : s.tools.setPriority t v with
    | error e => simp [hx] at hs
    | ok ts =>
      simp only [hx, Except.ok.injEq, Prod.mk.injEq] at hs
      rw [← hs.1]
      exact ⟨hg, fun _ _ => rfl⟩
  | getPriority t =>
    simp only [stepOp, gotchaGetPriority, gotchaInit, hin, if_true, bind, Except.bind] at hs
    cases hx : s.tools.getPriority t with
    | error e => simp [hx] at hs
    | ok ts =>
      simp only [hx, Except.ok.injEq, Prod.mk.injEq] at hs
      rw [← hs.1]
      exact ⟨hg, fun _ _ => rfl⟩
  | setFilter f =>
    simp only [stepOp, Except.ok.injEq, Prod.mk.injEq] at hs
    rw [← hs.1]
    exact ⟨hg, fun _ _ => rfl⟩
  | load ld =>
    simp only [stepOp, Except.ok.injEq, Prod.mk.injEq] at hs
    rw [← hs.1]
    exact ⟨hg, fun _ _ => rfl⟩
  | unload dead =>
    simp only [stepOp, Except.ok.injEq, Prod.mk.injEq] at hs
    rw [← hs.1]
    exact ⟨hg, fun _ _ => rfl⟩
  | dlopen ld =>
    obtain ⟨-, hv⟩ := valid_snoc ops _ (start_valid (hon := False) h fun hc => absurd hc id)
    have hA : (Abs.run (p.ctx False False).env ops p.abs).1.libs = s.linkMap := hP.inv.libs
    have hlo : LoadOk ((p.ctx False False).at v) (seenRun p.seen ops) s.linkMap ld := by
      rw [← hA]; exact ⟨hv.1.objs, hv.1.nd, hv.1.again, hv.1.placed, hv.1.old, hv.1.cover, hv.1.cons, hv.1.keep⟩
    simp only [stepOp, hin, if_true, bind, Except.bind] at hs
    have hw : ∃ a, s.getWrappee p.env.hDlopen = .ok a := by
      cases hx : s.getWrappee p.env.hDlopen with
      | error e => simp [dlopenWrapper, hx, bind, Except.bind] at hs
      | ok a => exact ⟨a, rfl⟩
    obtain ⟨s1, lm', e1, ⟨e2, -⟩, e3, e4, e5, -⟩ := dlopen_facts (C := (p.ctx False False).at v) ok.world hP
      hlo hw
    have e1' : dlopenWrapper p.env ld s = .ok s1 := e1
    rw [e1'] at hs
    simp only [Except.ok.injEq, Prod.mk.injEq] at hs
    rw [← hs.1]
    refine ⟨?_, ?_⟩
    · rw [genOf_eq (env := p.env) (U := p.U) ok.world e3 hl, e2]
      exact e4 _ (by rw [← hL]; exact hg)
    · intro a ha
      rcases e5 a with e | ⟨l', hU, hne, q, hq, e⟩
      · exact e
      · exfalso
        by_cases hx : l' = l
        · subst hx
          exact hne (by rw [← hL]; exact hg)
        · exact ha l' hU hx q hq e

/-- The same for any number of events. -/
theorem run_frozen {p : Process} (ok : p.Ok) {l : Lib} (hl : p.U l) (post : List Op) :
    ∀ {ops : List Op}, Events p False (ops ++ post) → ∀ {s os s' os'},
      run p.env ops p.start = .ok (s, os) → ops.any isApi = true →
      run p.env (ops ++ post) p.start = .ok (s', os') → (∀ o ∈ post, isWrap o = false) →
      genOf s l = s.gen → genOf s' l = s'.gen ∧
        ∀ a, (∀ l', p.U l' → l' ≠ l → ∀ q ∈ rlOf l', a ≠ l'.addr + q.1) →
          s'.mem a = post.foldl (fun v op => loaderWord op a v) (s.mem a) := by
  induction post with
  | nil =>
    intro ops h s os s' os' hr hi hr' _ hg
    rw [List.append_nil, hr] at hr'
    cases hr'
    exact ⟨hg, fun _ _ => rfl⟩
  | cons op post ih =>
    intro ops h s os s' os' hr hi hr' hpost hg
    have e : ops ++ op :: post = (ops ++ [op]) ++ post := by simp
    rw [e] at h hr'
    have hmid : ∃ s1 os1, run p.env (ops ++ [op]) p.start = .ok (s1, os1) := by
      rw [run_append_model] at hr'
      cases h1 : run p.env (ops ++ [op]) p.start with
      | error e => simp [h1, bind, Except.bind] at hr'
      | ok x => exact ⟨x.1, x.2, rfl⟩
    obtain ⟨s1, os1, hr1⟩ := hmid
    obtain ⟨s0, os0, o, h1, h2, -⟩ := run_last hr1
    rw [hr] at h1
    cases h1
    obtain ⟨g1, g2⟩ := step_frozen ok h.prefix hr hi h2 (hpost op (by simp)) hl hg
    obtain ⟨g3, g4⟩ := ih h hr1 (by simp [hi]) hr' (fun o ho => hpost o (List.mem_cons_of_mem _ ho)) g1
    refine ⟨g3, fun a ha => ?_⟩
    rw [List.foldl_cons, ← g2 a ha]
    exact g4 a ha

/-- An intercepted dlopen brings every library that the filter lets through up to date. -/
theorem step_dlopen_gen {p : Process} (ok : p.Ok) {ops : List Op} {ld : Load}
    (h : Events p False (ops ++ [.dlopen ld])) {s os s' o}
    (hr : run p.env ops p.start = .ok (s, os)) (hi : ops.any isApi = true)
    (hs : stepOp p.env (.dlopen ld) s = .ok (s', o)) {l : Lib}
    (hadm : Admitted (filterAfter ops) (libsAfter p.libs (ops ++ [.dlopen ld])) l) (hrel : HasRel l) :
    genOf s' l = s'.gen ∧ p.U l := by
  obtain ⟨v, G, hP⟩ := run_post ok h.prefix hr hi
  have hin : s.inited = true := hP.inv.init
  obtain ⟨-, hv⟩ := valid_snoc ops _ (start_valid (hon := False) h fun hc => absurd hc id)
  have hA : (Abs.run (p.ctx False False).env ops p.abs).1.libs = s.linkMap := hP.inv.libs
  have hlo : LoadOk ((p.ctx False False).at v) (seenRun p.seen ops) s.linkMap ld := by
    rw [← hA]; exact ⟨hv.1.objs, hv.1.nd, hv.1.again, hv.1.placed, hv.1.old, hv.1.cover, hv.1.cons, hv.1.keep⟩
  simp only [stepOp, hin, if_true, bind, Except.bind] at hs
  have hw : ∃ a, s.getWrappee p.env.hDlopen = .ok a := by
    cases hx : s.getWrappee p.env.hDlopen with
    | error e => simp [dlopenWrapper, hx, bind, Except.bind] at hs
    | ok a => exact ⟨a, rfl⟩
  obtain ⟨s1, lm', e1, -, e3, -, -, e6⟩ := dlopen_facts (C := (p.ctx False False).at v) ok.world hP
    hlo hw
  have e1' : dlopenWrapper p.env ld s = .ok s1 := e1
  rw [e1'] at hs
  simp only [Except.ok.injEq, Prod.mk.injEq] at hs
  rw [← hs.1]
  obtain ⟨en1, en2⟩ := events_env ok ops h.prefix hr
  have el : libsAfter p.libs (ops ++ [.dlopen ld]) = s.linkMap ++ ld.libs := by
    rw [libsAfter, List.foldl_append, en1]
    rfl
  rw [el, ← en2] at hadm
  have hU : ∀ l ∈ s.linkMap ++ ld.libs, p.U l := by
    intro l hl
    rcases List.mem_append.1 hl with hl | hl
    · exact (hP.inv.objs l hl).1
    · exact hlo.objs l hl
  have hlU : p.U l := by
    obtain ⟨X, Y, e, -⟩ := hadm
    exact hU l (by rw [e]; simp)
  refine ⟨?_, hlU⟩
  rw [genOf_eq (env := p.env) (U := p.U) ok.world e3 hlU]
  exact e6 l (admitted_accepted (env := p.env) ok.world hU hadm) hrel

/-- gotcha_wrap of a table without "main". -/
theorem step_wrap {p : Process} (ok : p.Ok) {ops : List Op} {tbl : List UBinding}
    {tool : Option Name} (h : Events p False ops) {s os s' o}
    (hr : run p.env ops p.start = .ok (s, os)) (hi : ops.any isApi = true)
    (hs : stepOp p.env (.wrap tbl tool) s = .ok (s', o)) (hm : ¬ hasMain tbl) :
    (∀ a, s'.mem a = s.mem a ∨ ∃ l, p.U l ∧ ∃ q ∈ rlOf l, a = l.addr + q.1 ∧
        q.2 ∈ tbl.map UBinding.name) ∧
      ((∃ f ∈ tbl.map UBinding.name,
          f ∉ (ownTable p.env ++ ops.flatMap tableOf).map UBinding.name) →
        ∀ l, Admitted (filterAfter ops) (libsAfter p.libs ops) l → HasRel l →
          genOf s' l = s'.gen) := by
  obtain ⟨v, G, hP⟩ := run_post ok h hr hi
  have hin : s.inited = true := hP.inv.init
  obtain ⟨s1, c, lm', e1, e2, e3, e4, -⟩ := wrap_facts (C := (p.ctx False False).at v) ok.world
    (onMainReal_spec ok.world (fun hc => absurd hc id)) hP.inv id id tbl tool
    (Or.inl fun u hu e => hm ⟨u, hu, e⟩)
  have e1' : wrapCore p.env (onMainReal p.env) tbl tool s = .ok (s1, c) := e1
  simp only [stepOp, gotchaWrap, gotchaInit, hin, if_true, bind, Except.bind, wrapBody, e1',
    Except.ok.injEq, Prod.mk.injEq] at hs
  obtain ⟨rfl, -⟩ := hs
  refine ⟨?_, ?_⟩
  · intro a
    rcases e3 a with e | ⟨l, hl, q, hq, e, hn⟩
    · exact Or.inl e
    · exact Or.inr ⟨l, (hP.inv.objs l hl).1, q, hq, e, hn⟩
  · rintro ⟨f, hf, hnew⟩ l hadm hrel
    obtain ⟨en1, en2⟩ := events_env ok ops h hr
    have hU : ∀ l ∈ libsAfter p.libs ops, p.U l := by
      intro l hl
      rw [← en1] at hl
      exact (hP.inv.objs l hl).1
    have hacc := admitted_accepted (env := p.env) ok.world hU hadm
    rw [← en1, ← en2] at hacc
    have hlU : p.U l := by
      obtain ⟨X, Y, e, -⟩ := hadm
      exact hU l (by rw [e]; simp)
    rw [genOf_eq (env := p.env) (U := p.U) ok.world e2 hlU]
    refine e4 ⟨f, hf, ?_⟩ l hacc hrel
    rw [List.eq_nil_iff_forall_not_mem]
    intro b hb
    obtain ⟨t, u, hb, hn⟩ := hP.inv.bind.named hb
    obtain ⟨x, hx, -, hxu⟩ := btu_get hb
    apply hnew
    rw [List.map_append, List.mem_append, ← hn, ← hxu]
    have := run_users _ hr x.user (List.mem_map.2 ⟨x, List.mem_of_getElem? hx, rfl⟩)
    rcases this with h | h | h
    · cases h
    · exact Or.inl (List.mem_map_of_mem h)
    · exact Or.inr (List.mem_map_of_mem h)

/-- gotcha_wrap writes into libraries only whose record does not carry the new generation. -/
theorem step_wrap_stale {p : Process} (ok : p.Ok) {ops : List Op} {tbl : List UBinding}
    {tool : Option Name} (h : Events p False ops) {s os s' o}
    (hr : run p.env ops p.start = .ok (s, os)) (hi : ops.any isApi = true)
    (hs : stepOp p.env (.wrap tbl tool) s = .ok (s', o)) (hm : ¬ hasMain tbl) :
    ∀ a, s'.mem a = s.mem a ∨ ∃ l, p.U l ∧ genOf s l ≠ s.gen + 1 ∧
      ∃ q ∈ rlOf l, a = l.addr + q.1 := by
  obtain ⟨v, G, hP⟩ := run_post ok h hr hi
  have hin : s.inited = true := hP.inv.init
  obtain ⟨s1, c, lm', e1, -, -, -, -, -, e4⟩ := wrap_facts (C := (p.ctx False False).at v) ok.world
    (onMainReal_spec ok.world (fun hc => absurd hc id)) hP.inv id id tbl tool
    (Or.inl fun u hu e => hm ⟨u, hu, e⟩)
  have e1' : wrapCore p.env (onMainReal p.env) tbl tool s = .ok (s1, c) := e1
  simp only [stepOp, gotchaWrap, gotchaInit, hin, if_true, bind, Except.bind, wrapBody, e1',
    Except.ok.injEq, Prod.mk.injEq] at hs
  obtain ⟨rfl, -⟩ := hs
  intro a
  rcases e4 a with e | ⟨l, hl, hg, q, hq, e⟩
  · exact Or.inl e
  · have hU := (hP.inv.objs l hl).1
    refine Or.inr ⟨l, hU, ?_, q, hq, e⟩
    rw [genOf_eq (env := p.env) (U := p.U) ok.world hP.inv.lib hU]
    exact hg

end Gotcha.Spec
